import Verif.Lemmas.Notebook
import Verif.Lemmas.Json

/-! # C100: the notebooks `mdtonb` writes, and where -/
set_option autoImplicit false
set_option linter.unusedSimpArgs false
namespace Verif.Props.Notebook
open Verif.Py Verif.Spec.Json Verif.Spec.Paths Verif.Spec.Notebook Verif.Model.MdToNb Verif.Model.MdToNbFiles Verif.Lemmas.Notebook
open Verif.Props.MdToNb (Clean trim isPy textOf pieces pyOf)
open Verif.Spec.MdToNb (content runs kinds)

/-! ## The text -/

/-- C100: a text is JSON for at most one value, so that the next theorem says which notebook a program that reads the file sees. -/
theorem C100_json_unique (text : Str) (v w : Value) (hv : IsJson text v) (hw : IsJson text w) : v = w :=
  Verif.Lemmas.Json.unique text v w hv hw

/-- C100 (part): if the markdown file ends with a line end and has no backslashes and control characters, what is written is, as a whole, JSON for
a notebook whose cells contain the lines of the file that are not empty, in order, each in a cell of its kind, the code cells being the runs of lines
of code. What is missing: other files, for which this is false (`C79_last_line`, `C79_backslash`). -/
theorem C100_notebook_partial (text : Str) (hc : Clean (Lines.univ text)) (he : ∃ y, Lines.univ text = y ++ ['\n']) :
    ∃ nb : List NbCell, IsJson (convertString text) (notebook nb) ∧
      nb.flatMap (fun q => (pieces q.2.flatten).map (fun p => (q.1, p))) = content (Lines.univ text) ∧
      (nb.filter (fun q => q.1)).map (fun q => q.2.flatten) = (pyOf (runs (kinds (Lines.univ text)))).map trim := by
  have hok := Verif.Props.MdToNb.cells_ok text hc he
  refine ⟨(cells text).map nbCell, ?_, ?_, ?_⟩
  · unfold IsJson lex convertString
    rw [List.append_assoc, scan_append _ _ _ _ _ scan_start, scan_append _ _ _ _ _ (scan_cells _ hok), scan_end, toks_notebook]
    simp
  · rw [← Verif.Props.MdToNb.C79_lines, List.flatMap_map]
    apply List.flatMap_congr
    intro c hcm
    obtain ⟨x, hx, -⟩ := hok c hcm
    unfold nbCell
    dsimp only
    rw [vals_flatten, List.nil_append, hx, Verif.Props.MdToNb.pieces_trim]
  · rw [← Verif.Props.MdToNb.C79_code_cells, List.filter_map, List.map_map, Verif.Props.MdToNb.pyTexts, List.map_map]
    apply List.map_congr_left
    intro c _
    simp [nbCell, vals_flatten]

/-- C100: an empty file becomes a notebook without cells. -/
theorem C100_empty : IsJson (convertString []) (notebook []) := by
  unfold IsJson lex convertString
  have h0 : cells [] = [] := by decide
  have := scan_cells [] (by simp)
  rw [h0, List.append_assoc, scan_append _ _ _ _ _ scan_start, scan_append _ _ _ _ _ this, scan_end, toks_notebook]
  simp

/-- C100: a file without a final line end, or with a backslash, can become something that is no JSON at all (the code disagrees with the property). -/
theorem C100_no_json : ¬ (∃ v, IsJson (convertString "One line.\nEnd".toList) v) ∧ ¬ ∃ v, IsJson (convertString "[1]r'\\d'\n".toList) v := by
  have h1 : lex (convertString "One line.\nEnd".toList) = none := by decide +kernel
  have h2 : lex (convertString "[1]r'\\d'\n".toList) = none := by decide +kernel
  constructor
  · rintro ⟨v, hv⟩
    unfold IsJson at hv
    rw [h1] at hv
    simp at hv
  · rintro ⟨v, hv⟩
    unfold IsJson at hv
    rw [h2] at hv
    simp at hv

/-! ## The files -/

/-- The file system `fs'` is `fs` but for one file. -/
def Wrote (fs fs' : FS) (l : Loc) (text : Str) : Prop := fs'.file l = some text ∧ (∀ m, m ≠ l → fs'.file m = fs.file m) ∧ fs'.dir = fs.dir

theorem open_ok (fs : FS) (l : Loc) (text : Str) (h : fs.CanWrite l) : ∃ fs', Verif.Model.GraphPaths.openWrite fs l text = some fs' ∧ Wrote fs fs' l text := by
  refine ⟨_, if_pos h, by simp, ?_, rfl⟩
  intro m hm
  simp [hm]

theorem open_fail (fs : FS) (l : Loc) (text : Str) (h : ¬ fs.CanWrite l) : Verif.Model.GraphPaths.openWrite fs l text = none := if_neg h

theorem convert_eq (home : Str → Option Str) (cwd : Loc) (path : Str) (fs : FS) (l : Loc) (hl : walk cwd (outName home path) = l) (h : fs.CanWrite l) :
    ∃ fs', convert home cwd path fs = (fs', none) ∧
      Wrote fs fs' l (convertString (if walk cwd path = l then [] else (fs.file (walk cwd path)).getD [])) := by
  obtain ⟨fs1, h1, h2, h3, h4⟩ := open_ok fs l [] h
  have hw : fs1.CanWrite l := by
    unfold FS.CanWrite
    rw [h4]
    exact h
  obtain ⟨fs2, k1, k2, k3, k4⟩ := open_ok fs1 l (convertString ((fs1.file (walk cwd path)).getD [])) hw
  refine ⟨fs2, ?_, ?_, ?_, ?_⟩
  · unfold convert
    rw [hl, h1]
    simp only [k1]
  · rw [k2]
    congr 2
    split
    · rename_i e; rw [e, h2]; rfl
    · rename_i e; rw [h3 _ e]
  · intro m hm
    rw [k3 m hm, h3 m hm]
  · rw [k4, h4]

/-- C100: converting one markdown file whose notebook can be written changes that one file, which is beside it and has its name with the extension
`.ipynb`, and nothing else. -/
theorem C100_one (home : Str → Option Str) (cwd : Loc) (path dir stem ext : Str) (hd : Doc path dir stem ext) (fs : FS) (text : Str)
    (ht : fs.file (walk cwd path) = some text) (hx : ext ≠ ".ipynb".toList) (hw : fs.CanWrite (beside cwd dir stem)) :
    ∃ fs', run home cwd [path] fs = (fs', none) ∧ Wrote fs fs' (beside cwd dir stem) (convertString text) := by
  obtain ⟨fs', h1, h2⟩ := convert_eq home cwd path fs _ (out_beside home cwd hd) hw
  rw [if_neg, ht] at h2
  · refine ⟨fs', ?_, h2⟩
    unfold run
    rw [if_pos (by simp [ht])]
    simp only [convertAll, h1]
  · unfold beside
    rw [Verif.Lemmas.Paths.walk_inDir hd.name]
    intro e
    have := (List.append_inj' e rfl).2
    simp only [List.cons.injEq, and_true] at this
    exact hx (List.append_cancel_left this)

/-- A markdown file with the parts of its path and its text. -/
structure Input where
  path : Str
  dir : Str
  stem : Str
  ext : Str
  text : Str

/-- The inputs can be converted: the files exist, their notebooks are different files, none of which is an input, and can be written. -/
structure Ready (cwd : Loc) (fs : FS) (is : List Input) : Prop where
  doc : ∀ i ∈ is, Doc i.path i.dir i.stem i.ext
  there : ∀ i ∈ is, fs.file (walk cwd i.path) = some i.text
  apart : (is.map (fun i => beside cwd i.dir i.stem)).Nodup
  kept : ∀ i ∈ is, ∀ j ∈ is, beside cwd i.dir i.stem ≠ walk cwd j.path
  free : ∀ i ∈ is, fs.CanWrite (beside cwd i.dir i.stem)

/-- The notebooks of these inputs are written, and no other file has changed. -/
def Converted (cwd : Loc) (fs fs' : FS) (is : List Input) : Prop :=
  (∀ i ∈ is, fs'.file (beside cwd i.dir i.stem) = some (convertString i.text)) ∧
  (∀ l, (∀ i ∈ is, l ≠ beside cwd i.dir i.stem) → fs'.file l = fs.file l) ∧ fs'.dir = fs.dir

theorem convertAll_ready (home : Str → Option Str) (cwd : Loc) (is : List Input) (fs : FS) (h : Ready cwd fs is) (rest : List Str) :
    ∃ fs', convertAll home cwd (is.map Input.path ++ rest) fs = convertAll home cwd rest fs' ∧ Converted cwd fs fs' is := by
  induction is generalizing fs with
  | nil => exact ⟨fs, rfl, by simp [Converted]⟩
  | cons i is ih =>
    have hout := out_beside home cwd (h.doc i (by simp))
    obtain ⟨fs1, h1, h2, h3, h4⟩ := convert_eq home cwd i.path fs _ hout (h.free i (by simp))
    rw [if_neg (fun e => h.kept i (by simp) i (by simp) e.symm), h.there i (by simp)] at h2
    have hap := h.apart
    rw [List.map_cons, List.nodup_cons] at hap
    have hr : Ready cwd fs1 is := by
      refine ⟨fun j hj => h.doc j (by simp [hj]), ?_, hap.2, fun j hj k hk => h.kept j (by simp [hj]) k (by simp [hk]), ?_⟩
      · intro j hj
        rw [h3 _ (fun e => h.kept i (by simp) j (by simp [hj]) e.symm)]
        exact h.there j (by simp [hj])
      · intro j hj
        unfold FS.CanWrite
        rw [h4]
        exact h.free j (by simp [hj])
    obtain ⟨fs', k1, k2, k3, k4⟩ := ih fs1 hr
    refine ⟨fs', ?_, ?_, ?_, by rw [k4, h4]⟩
    · rw [List.map_cons, List.cons_append, convertAll, h1]
      exact k1
    · intro j hj
      rcases List.mem_cons.1 hj with rfl | hj
      · rw [k3 _ (fun k hk e => hap.1 (by rw [e]; exact List.mem_map_of_mem hk)), h2]
        rfl
      · exact k2 j hj
    · intro l hl
      rw [k3 l (fun j hj => hl j (by simp [hj])), h3 l (hl i (by simp))]

/-- C100: a whole command: every file becomes a notebook beside it, and nothing else changes. -/
theorem C100_all (home : Str → Option Str) (cwd : Loc) (is : List Input) (fs : FS) (h : Ready cwd fs is) :
    ∃ fs', run home cwd (is.map Input.path) fs = (fs', none) ∧ Converted cwd fs fs' is := by
  obtain ⟨fs', h1, h2⟩ := convertAll_ready home cwd is fs h []
  refine ⟨fs', ?_, h2⟩
  rw [List.append_nil] at h1
  unfold run
  rw [if_pos, h1]
  · rfl
  · rw [List.all_eq_true]
    intro p hp
    obtain ⟨i, hi, rfl⟩ := List.mem_map.1 hp
    rw [h.there i hi]
    rfl

/-- C100: if one of the files does not exist nothing is converted. -/
theorem C100_missing (home : Str → Option Str) (cwd : Loc) (paths : List Str) (fs : FS) (p : Str) (hp : p ∈ paths) (h : fs.file (walk cwd p) = none) :
    run home cwd paths fs = (fs, some .usage) := by
  unfold run
  rw [if_neg]
  rw [List.all_eq_true]
  intro ha
  have := ha p hp
  rw [h] at this
  simp at this

/-- C100: if a notebook can not be written those before it are there, and it and those behind it are not touched. -/
theorem C100_stop (home : Str → Option Str) (cwd : Loc) (is : List Input) (fs : FS) (h : Ready cwd fs is) (path dir stem ext : Str)
    (hd : Doc path dir stem ext) (hw : ¬ fs.CanWrite (beside cwd dir stem)) (rest : List Str)
    (hall : ∀ p ∈ path :: rest, (fs.file (walk cwd p)).isSome) :
    ∃ fs', run home cwd (is.map Input.path ++ path :: rest) fs = (fs', some .osError) ∧ Converted cwd fs fs' is := by
  obtain ⟨fs', h1, h2⟩ := convertAll_ready home cwd is fs h (path :: rest)
  refine ⟨fs', ?_, h2⟩
  unfold run
  rw [if_pos, h1]
  · have hf : ¬ fs'.CanWrite (beside cwd dir stem) := by
      unfold FS.CanWrite
      rw [h2.2.2]
      exact hw
    rw [convertAll, convert, out_beside home cwd hd, open_fail _ _ _ hf]
  · rw [List.all_eq_true]
    intro p hp
    rcases List.mem_append.1 hp with hp | hp
    · obtain ⟨i, hi, rfl⟩ := List.mem_map.1 hp
      rw [h.there i hi]
      rfl
    · exact hall p hp

/-- C100: a file whose extension already is `.ipynb` is emptied before it is read: whatever it held, it then is a notebook without cells (the code
disagrees with the property). -/
theorem C100_own (home : Str → Option Str) (cwd : Loc) (path dir stem : Str) (hd : Doc path dir stem ".ipynb".toList) (fs : FS) (text : Str)
    (ht : fs.file (walk cwd path) = some text) (hw : fs.CanWrite (walk cwd path)) :
    ∃ fs', run home cwd [path] fs = (fs', none) ∧ Wrote fs fs' (walk cwd path) (convertString []) := by
  have e : beside cwd dir stem = walk cwd path := by
    rw [Verif.Lemmas.Paths.walk_inDir hd.name]; rfl
  have hout := out_beside home cwd hd
  rw [e] at hout
  obtain ⟨fs', h1, h2⟩ := convert_eq home cwd path fs _ hout hw
  rw [if_pos rfl] at h2
  refine ⟨fs', ?_, h2⟩
  unfold run
  rw [if_pos (by simp [ht])]
  simp only [convertAll, h1]

/-- C100: of two files in a directory that differ only by their extension, as `a.md` and `a.txt`, only the second has its notebook: it replaces that
of the first (the code disagrees with the property). -/
theorem C100_collision (home : Str → Option Str) (cwd : Loc) (p q dir stem e f : Str) (hp : Doc p dir stem e) (hq : Doc q dir stem f)
    (he : e ≠ ".ipynb".toList) (hf : f ≠ ".ipynb".toList) (fs : FS) (s t : Str) (hs : fs.file (walk cwd p) = some s) (ht : fs.file (walk cwd q) = some t)
    (hw : fs.CanWrite (beside cwd dir stem)) :
    ∃ fs', run home cwd [p, q] fs = (fs', none) ∧ Wrote fs fs' (beside cwd dir stem) (convertString t) := by
  have hne : ∀ r g, Doc r dir stem g → g ≠ ".ipynb".toList → walk cwd r ≠ beside cwd dir stem := by
    intro r g hr hg
    unfold beside
    rw [Verif.Lemmas.Paths.walk_inDir hr.name]
    intro e
    have := (List.append_inj' e rfl).2
    simp only [List.cons.injEq, and_true] at this
    exact hg (List.append_cancel_left this)
  obtain ⟨fs1, h1, -, h3, h4⟩ := convert_eq home cwd p fs _ (out_beside home cwd hp) hw
  have hw1 : fs1.CanWrite (beside cwd dir stem) := by
    unfold FS.CanWrite
    rw [h4]
    exact hw
  obtain ⟨fs2, k1, k2, k3, k4⟩ := convert_eq home cwd q fs1 _ (out_beside home cwd hq) hw1
  rw [if_neg (hne q f hq hf), h3 _ (hne q f hq hf), ht] at k2
  refine ⟨fs2, ?_, k2, ?_, by rw [k4, h4]⟩
  · unfold run
    rw [if_pos (by simp [hs, ht])]
    simp only [convertAll, h1, k1]
  · intro m hm
    rw [k3 m hm, h3 m hm]

/-! ## Non-vacuity -/

def exText : Str := "# Title\n\n[1]import x\n[1]y = \"z\"\n\nText\n".toList

/-- The directories `/` and `/work`, with two files in the second. -/
def exFS : FS := ⟨fun l => if l = ["work".toList, "a.md".toList] then some exText else if l = ["work".toList, "b".toList] then some "x\n".toList else none,
  fun l => l = [] ∨ l = ["work".toList]⟩

example : IsJson (convertString exText) (notebook [(false, ["# Title\n".toList, []]), (true, ["import x\n".toList, "y = \"z\"".toList]), (false, ["Text".toList])]) := by
  unfold IsJson
  decide +kernel
example : Clean (Lines.univ exText) ∧ ∃ y, Lines.univ exText = y ++ ['\n'] := by
  constructor
  · intro c hc
    revert c
    decide +kernel
  · exact ⟨(Lines.univ exText).dropLast, by decide +kernel⟩

def exA : Input := ⟨"a.md".toList, [], "a".toList, ".md".toList, exText⟩
def exB : Input := ⟨"../work/b".toList, "../work/".toList, "b".toList, [], "x\n".toList⟩

theorem exReady : Ready ["work".toList] exFS [exA, exB] := by
  have dA : Doc exA.path exA.dir exA.stem exA.ext :=
    ⟨⟨rfl, .inl rfl, by decide, by decide⟩, by show ∀ part ∈ _, _; decide +kernel, .inr ⟨⟨"md".toList, rfl, by decide⟩, 'a', by decide, by decide⟩⟩
  have dB : Doc exB.path exB.dir exB.stem exB.ext :=
    ⟨⟨rfl, .inr ⟨"../work".toList, rfl⟩, by decide, by decide⟩, by show ∀ part ∈ _, _; decide +kernel, .inl ⟨rfl, by decide⟩⟩
  refine ⟨?_, ?_, ?_, ?_, ?_⟩
  · intro i hi
    rcases List.mem_cons.1 hi with rfl | hi
    · exact dA
    · rw [List.mem_singleton.1 hi]; exact dB
  · intro i hi
    rcases List.mem_cons.1 hi with rfl | hi
    · decide +kernel
    · rw [List.mem_singleton.1 hi]; decide +kernel
  · decide +kernel
  · intro i hi j hj
    rcases List.mem_cons.1 hi with rfl | hi <;> rcases List.mem_cons.1 hj with rfl | hj
    · decide +kernel
    · rw [List.mem_singleton.1 hj]; decide +kernel
    · rw [List.mem_singleton.1 hi]; decide +kernel
    · rw [List.mem_singleton.1 hi, List.mem_singleton.1 hj]; decide +kernel
  · intro i hi
    rcases List.mem_cons.1 hi with rfl | hi
    · show _ ≠ _ ∧ _ = _ ∧ _ = _; decide +kernel
    · rw [List.mem_singleton.1 hi]; show _ ≠ _ ∧ _ = _ ∧ _ = _; decide +kernel

example : ∃ fs', run (fun _ => none) ["work".toList] ["a.md".toList, "../work/b".toList] exFS = (fs', none) ∧
    fs'.file ["work".toList, "b.ipynb".toList] = some (convertString "x\n".toList) := by
  obtain ⟨fs', h1, h2, -⟩ := C100_all (fun _ => none) _ _ _ exReady
  exact ⟨fs', h1, h2 exB (by simp)⟩

end Verif.Props.Notebook
