import Verif.Spec.Notebook
import Verif.Model.MdToNbFiles
import Verif.Props.MdToNb
import Verif.Lemmas.GraphPaths

/-! # Lemmas on notebooks and their files -/
set_option autoImplicit false
set_option linter.unusedSimpArgs false
namespace Verif.Lemmas.Notebook
open Verif.Py Verif.Spec.Json Verif.Spec.Paths Verif.Spec.Notebook Verif.Model.MdToNb Verif.Model.MdToNbFiles
open Verif.Props.MdToNb (enc Clean OkText trim isPy textOf cells_ok)

theorem scan_append (a : At) (s t : Str) (b : At) (p : List Tok) (h : scan a s = some (b, p)) :
    scan a (s ++ t) = (scan b t).map (fun q => (q.1, p ++ q.2)) := by
  induction s generalizing a b p with
  | nil =>
    simp only [scan, Option.some.injEq, Prod.mk.injEq] at h
    obtain ⟨rfl, rfl⟩ := h
    simp
  | cons c s ih =>
    rw [scan] at h
    rw [List.cons_append, scan]
    cases hn : next a c with
    | none => rw [hn] at h; simp at h
    | some q =>
      rw [hn] at h
      obtain ⟨a', t'⟩ := q
      simp only at h ⊢
      cases hs : scan a' s with
      | none => rw [hs] at h; simp at h
      | some r =>
        rw [hs] at h
        simp only [Option.map_some, Option.some.injEq, Prod.mk.injEq] at h
        obtain ⟨h1, h2⟩ := h
        rw [ih a' r.1 r.2 hs, h1, Option.map_map, ← h2]
        congr 1
        funext q
        simp

/-- The strings a text is written as, one for each line. -/
def vals (acc : Str) : Str → List Str
  | [] => [acc]
  | c :: u => if c = '\n' then (acc ++ ['\n']) :: vals [] u else vals (acc ++ [c]) u

theorem vals_flatten (acc u : Str) : (vals acc u).flatten = acc ++ u := by
  induction u generalizing acc with
  | nil => simp [vals]
  | cons c u ih =>
    rw [vals]
    split
    · rename_i h; rw [List.flatten_cons, ih, h]; simp
    · rw [ih]; simp

theorem vals_ne (acc u : Str) : vals acc u ≠ [] := by
  induction u generalizing acc with
  | nil => simp [vals]
  | cons c u ih =>
    rw [vals]
    split
    · simp
    · exact ih _

theorem items_cons (v : Value) (l : List Value) (h : l ≠ []) : items (v :: l) = toks v ++ .punct ',' :: items l := by
  cases l with
  | nil => exact absurd rfl h
  | cons w l => rw [items]

theorem scan_enc (u acc : Str) (hu : Clean u) : scan (.str acc) (enc u ++ ['"']) = some (.out, items ((vals acc u).map .str)) := by
  induction u generalizing acc with
  | nil => simp [enc, scan, next, vals, items, toks]
  | cons c u ih =>
    have hu' : Clean u := fun d hd => hu d (by simp [hd])
    obtain ⟨h1, h2⟩ := hu c (by simp)
    have he : enc (c :: u) = enc [c] ++ enc u := by rw [← Verif.Props.MdToNb.enc_append]; rfl
    rw [he, List.append_assoc, vals]
    by_cases hc : c = '\n'
    · subst hc
      have hs : scan (.str acc) (enc ['\n']) = some (.str [], [.str (acc ++ ['\n']), .punct ',']) := by
        simp [enc, sep, scan, next, unescape, isWs, isPunct]
      rw [scan_append _ _ _ _ _ hs, ih [] hu', if_pos rfl, List.map_cons, items_cons _ _ (by simp [vals_ne])]
      simp [toks]
    · rw [if_neg hc]
      have h3 : ¬ c.toNat < 32 := by
        rcases h2 with h2 | h2
        · exact absurd h2 hc
        · omega
      have hs : scan (.str acc) (enc [c]) = some (.str (acc ++ [c]), []) := by
        by_cases hq : c = '"'
        · subst hq; simp [enc, scan, next, unescape]
        · simp [enc, hq, hc, scan, next, h1, h3]
      rw [scan_append _ _ _ _ _ hs, ih _ hu']
      simp

theorem source_enc (x : Str) (hx : Clean x) : ∃ u, trim (x ++ ['\n']) = u ∧ Clean u ∧ source (x ++ ['\n']) = '"' :: (enc u ++ ['"']) := by
  refine ⟨_, rfl, ?_⟩
  unfold source preprocess trim
  rw [Verif.Props.MdToNb.replace_both]
  dsimp only
  generalize ht : (x ++ ['\n']).dropWhile (fun c => (c = '\n' : Bool)) = t
  have hsuf : t <:+ x ++ ['\n'] := by rw [← ht]; exact List.dropWhile_suffix _
  rcases List.eq_nil_or_concat t with rfl | ⟨u, d, rfl⟩
  · exact ⟨by intro c hc; simp at hc, rfl⟩
  · have hd : d = '\n' := by
      obtain ⟨w, hw⟩ := hsuf
      rw [List.concat_eq_append, ← List.append_assoc] at hw
      exact (List.append_inj' hw rfl).2 |> List.cons.inj |>.1
    subst hd
    rw [List.concat_eq_append, List.dropLast_concat, Verif.Props.MdToNb.enc_append]
    have : enc ['\n'] = sep := by simp [enc]
    rw [this, List.length_append]
    have h11 : sep.length = 11 := rfl
    rw [h11, Nat.add_sub_cancel, List.take_left]
    refine ⟨?_, rfl⟩
    intro c hc
    obtain ⟨w, hw⟩ := hsuf
    rw [List.concat_eq_append, ← List.append_assoc] at hw
    have hxx := (List.append_inj' hw rfl).1
    exact hx c (by rw [← hxx]; simp [hc])

/-- The cell as it is in the notebook. -/
def nbCell (c : Verif.Model.MdToNb.Cell) : NbCell := (isPy c, vals [] (trim (textOf c)))

theorem scan_source (x : Str) (hx : Clean x) : scan .out (source (x ++ ['\n'])) = some (.out, items ((vals [] (trim (x ++ ['\n']))).map .str)) := by
  obtain ⟨u, h1, h2, h3⟩ := source_enc x hx
  rw [h1, h3, scan, next]
  have := scan_enc u [] h2
  simp [isWs, isPunct, this]

def mdToks : List Tok := [.punct '{', .str "cell_type".toList, .punct ':', .str "markdown".toList, .punct ',', .str "metadata".toList, .punct ':',
  .punct '{', .punct '}', .punct ',', .str "source".toList, .punct ':', .punct '[']
def pyToks : List Tok := [.punct '{', .str "cell_type".toList, .punct ':', .str "code".toList, .punct ',', .str "execution_count".toList, .punct ':',
  .word "null".toList, .punct ',', .str "metadata".toList, .punct ':', .punct '{', .str "collapsed".toList, .punct ':', .word "false".toList, .punct '}',
  .punct ',', .str "outputs".toList, .punct ':', .punct '[', .punct ']', .punct ',', .str "source".toList, .punct ':', .punct '[']

theorem scan_md : scan .out mdOpen = some (.out, mdToks) := by decide +kernel
theorem scan_py : scan .out pyOpen = some (.out, pyToks) := by decide +kernel
theorem scan_post : scan .out cellClose = some (.out, [.punct ']', .punct '}']) := by decide +kernel

theorem toks_md (vs : List Str) : toks (cellValue (false, vs)) = mdToks ++ items (vs.map .str) ++ [.punct ']', .punct '}'] := by
  simp [cellValue, toks, members, mdToks, items]

theorem toks_py (vs : List Str) : toks (cellValue (true, vs)) = pyToks ++ items (vs.map .str) ++ [.punct ']', .punct '}'] := by
  simp [cellValue, toks, members, pyToks, items]

theorem writeCell_md (s : Str) : writeCell (.md s) = mdOpen ++ source s ++ cellClose := rfl
theorem writeCell_py (s : Str) : writeCell (.py s) = pyOpen ++ source s ++ cellClose := rfl

theorem scan_cell (c : Verif.Model.MdToNb.Cell) (h : OkText (textOf c)) : scan .out (writeCell c) = some (.out, toks (cellValue (nbCell c))) := by
  obtain ⟨x, hx, hc⟩ := h
  have hs := scan_source x hc
  rw [← hx] at hs
  cases c with
  | md s =>
    change scan .out (source s) = _ at hs
    rw [writeCell_md]
    show _ = some (At.out, toks (cellValue (false, _)))
    rw [toks_md, List.append_assoc, scan_append _ _ _ _ _ scan_md, scan_append _ _ _ _ _ hs, scan_post]
    simp [textOf]
  | py s =>
    change scan .out (source s) = _ at hs
    rw [writeCell_py]
    show _ = some (At.out, toks (cellValue (true, _)))
    rw [toks_py, List.append_assoc, scan_append _ _ _ _ _ scan_py, scan_append _ _ _ _ _ hs, scan_post]
    simp [textOf]

theorem scan_cells (cs : List Verif.Model.MdToNb.Cell) (h : ∀ c ∈ cs, OkText (textOf c)) :
    scan .out (Str.join ",\n  ".toList (cs.map writeCell)) = some (.out, items ((cs.map nbCell).map cellValue)) := by
  induction cs with
  | nil => rfl
  | cons c cs ih =>
    have ih := ih (fun d hd => h d (by simp [hd]))
    have hc := scan_cell c (h c (by simp))
    cases cs with
    | nil =>
      rw [List.map_cons, List.map_nil, List.map_cons, List.map_nil, List.map_cons, List.map_nil, items]
      exact hc
    | cons d cs =>
      have hsep : scan .out ",\n  ".toList = some (.out, [.punct ',']) := by decide +kernel
      rw [List.map_cons, Str.join_cons _ _ _ (by simp), List.append_assoc, scan_append _ _ _ _ _ hc, scan_append _ _ _ _ _ hsep, ih]
      have e : ((c :: d :: cs).map nbCell).map cellValue = cellValue (nbCell c) :: ((d :: cs).map nbCell).map cellValue := rfl
      rw [e, items_cons _ _ (by simp), Option.map_some, Option.map_some]
      simp only [List.singleton_append]

theorem scan_start : scan .out startString = some (.out, [.punct '{', .str "cells".toList, .punct ':', .punct '[']) := by decide +kernel

def endToks : List Tok := .punct ']' :: .punct ',' :: .str "metadata".toList :: .punct ':' :: toks metadata ++
  [.punct ',', .str "nbformat".toList, .punct ':', .word "4".toList, .punct ',', .str "nbformat_minor".toList, .punct ':', .word "0".toList, .punct '}']

theorem scan_end : scan .out endString = some (.out, endToks) := by decide +kernel

theorem toks_notebook (nb : List NbCell) : toks (notebook nb) =
    [.punct '{', .str "cells".toList, .punct ':', .punct '['] ++ items (nb.map cellValue) ++ endToks := by
  have h4 : showNat 4 = "4".toList := by decide
  have h0 : showNat 0 = "0".toList := by decide
  unfold endToks notebook
  simp only [toks, members, h4, h0]
  simp

/-! ## Names -/

theorem splitext_ext (H stem e : Str) (hH : H = [] ∨ ∃ R, H = R ++ ['/']) (hs : '/' ∉ stem ++ '.' :: e) (he : '.' ∉ e) (hd : ∃ c ∈ stem, c ≠ '.') :
    (Path.splitext (H ++ (stem ++ '.' :: e))).1 = H ++ stem := by
  unfold Path.splitext
  rw [Verif.Lemmas.GraphPaths.tail_append H _ hs hH]
  have hrev : (stem ++ '.' :: e).reverse = e.reverse ++ '.' :: stem.reverse := by simp
  have htw : (stem ++ '.' :: e).reverse.takeWhile (fun c => c ≠ '.') = e.reverse := by
    rw [hrev, List.takeWhile_append_of_pos]
    · simp
    · intro c hc
      simp only [decide_eq_true_eq]
      rintro rfl
      exact he (List.mem_reverse.1 hc)
  rw [htw]
  have hst : ((stem ++ '.' :: e).reverse.drop (e.reverse.length + 1)).reverse = stem := by
    rw [hrev, ← List.drop_drop, List.drop_left' rfl]; simp
  dsimp only
  rw [hst, if_pos]
  · have : (H ++ (stem ++ '.' :: e)).length - (e.reverse.length + 1) = (H ++ stem).length := by simp; omega
    rw [this, ← List.append_assoc, List.take_left' rfl]
  · refine ⟨by simp, ?_⟩
    obtain ⟨c, h1, h2⟩ := hd
    rw [List.any_eq_true]
    exact ⟨c, h1, by simpa using h2⟩

theorem splitext_none (H stem : Str) (hH : H = [] ∨ ∃ R, H = R ++ ['/']) (hs : '/' ∉ stem) (hd : '.' ∉ stem) :
    (Path.splitext (H ++ stem)).1 = H ++ stem := by
  unfold Path.splitext
  rw [Verif.Lemmas.GraphPaths.tail_append H _ hs hH]
  dsimp only
  rw [if_neg (fun h => hd h.1)]

theorem out_beside (home : Str → Option Str) (cwd : Loc) {path dir stem ext : Str} (h : Doc path dir stem ext) :
    walk cwd (outName home path) = beside cwd dir stem := by
  obtain ⟨H, hH, hD, hT⟩ := Verif.Lemmas.GraphPaths.normpath_inDir h.name h.tilde
  have hD' : H = [] ∨ ∃ R, H = R ++ ['/'] := by
    rcases hD with h | ⟨R, h, _⟩
    · exact .inl h
    · exact .inr ⟨R, h⟩
  have hns := h.name.noSlash
  have hstem : '/' ∉ stem := fun hm => hns (by simp [hm])
  have hne : stem ≠ [] := by
    rintro rfl
    rcases h.ext with ⟨rfl, -⟩ | ⟨-, c, hc, -⟩
    · exact h.name.name.1 rfl
    · simp at hc
  have hspl : (Path.splitext (H ++ (stem ++ ext))).1 = H ++ stem := by
    rcases h.ext with ⟨rfl, h2⟩ | ⟨⟨e, rfl, h2⟩, h3⟩
    · rw [List.append_nil]; exact splitext_none H stem hD' hstem h2
    · exact splitext_ext H stem e hD' hns h2 h3
  have hin : ∀ x, '/' ∉ x → x ≠ [] ∧ x ≠ ['.'] ∧ x ≠ ['.', '.'] → walk cwd (H ++ x) = walk cwd H ++ [x] :=
    fun x h1 h2 => Verif.Lemmas.Paths.walk_inDir ⟨rfl, hD', h1, h2⟩
  have hw : walk cwd H = walk cwd dir := by
    have e1 := hin _ hns h.name.name
    have e2 := Verif.Lemmas.Paths.walk_normpath cwd path
    rw [hH, Verif.Lemmas.Paths.walk_inDir h.name, e1] at e2
    exact List.append_cancel_right e2
  unfold outName beside
  rw [hH, Verif.Lemmas.Paths.expanduser_id home _ hT, hspl, List.append_assoc, hin, hw]
  · simp [hstem]
  · have hlen : 3 ≤ (stem ++ ".ipynb".toList).length := by simp
    refine ⟨?_, ?_, ?_⟩ <;> intro hh <;> rw [hh] at hlen <;> simp at hlen

end Verif.Lemmas.Notebook
