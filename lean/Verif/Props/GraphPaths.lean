import Verif.Lemmas.GraphPaths
import Verif.Props.GraphFiles

/-! # C98: the files `writeGraph` writes -/
set_option autoImplicit false
set_option linter.unusedSimpArgs false
namespace Verif.Props.GraphPaths
open Verif.Py Verif.Py.Graph Verif.Spec.Paths Verif.Model.GraphPaths Verif.Lemmas.Paths Verif.Lemmas.GraphPaths
open Verif.Model.GraphFiles (G Attrs FErr)

variable (home : Str → Option Str) {cwd : Loc}

theorem walk_graphFile {name dir b : Str} (h : InDir name dir b) (ht : NoTilde name) (kind : String) (hk : '/' ∉ kind.toList)
    (typing directed : Bool) (suffix : Str) (hs : '/' ∉ suffix) :
    walk cwd (fileName home name kind.toList (grphType typing directed) suffix) = walk cwd dir ++ [graphFile b kind typing directed suffix] := by
  rw [fileName_inDir home h ht _ _ _ hk _ hs]
  · rfl
  · unfold grphType
    cases typing <;> cases directed <;> decide

theorem effectAt_frame (fs : FS) (l : Loc) (e : Effect) : ∀ m, m ≠ l → (effectAt fs l e).1.file m = fs.file m := by
  intro m hm
  unfold effectAt openWrite
  cases e.1 with
  | none => rfl
  | some t =>
    dsimp only
    by_cases h : l ≠ [] ∧ fs.dir l = false ∧ fs.dir l.dropLast = true
    · rw [if_pos h]; simp [hm]
    · rw [if_neg h]

theorem effectAt_dir (fs : FS) (l : Loc) (e : Effect) : (effectAt fs l e).1.dir = fs.dir := by
  unfold effectAt openWrite
  cases e.1 with
  | none => rfl
  | some t =>
    dsimp only
    by_cases h : l ≠ [] ∧ fs.dir l = false ∧ fs.dir l.dropLast = true
    · rw [if_pos h]
    · rw [if_neg h]

theorem effectAt_some (fs : FS) (l : Loc) (t : Str) (x : Option FErr) (h : fs.CanWrite l) :
    effectAt fs l (some t, x) = ({ fs with file := fun m => if m = l then some t else fs.file m }, x.map .inner) := by
  unfold effectAt openWrite
  dsimp only
  have h' : l ≠ [] ∧ fs.dir l = false ∧ fs.dir l.dropLast = true := h
  rw [if_pos h']

/-- Files other than those at the two places do not change. -/
theorem frame (hc : Names cwd) (o : Opts) (name : Str) (eo no : List Str) (g : G) (fs : FS) (l : Loc)
    (h1 : l ≠ walk cwd (fileName home name "edgeList".toList (grphType o.typing g.directed) o.suffix))
    (h2 : l ≠ walk cwd (fileName home name "nodeAttributes".toList (grphType o.typing g.directed) o.suffix)) :
    (writeGraph home cwd o name eo no g fs).1.file l = fs.file l := by
  unfold writeGraph
  dsimp only
  rw [openedAbs_eq home cwd hc, openedNodes_eq home cwd hc]
  split
  · rfl
  · split
    · rfl
    · have hf := effectAt_frame fs (walk cwd (fileName home name "edgeList".toList (grphType o.typing g.directed) o.suffix))
        (edgeEffect o.edgeInfo o.allSame eo g) l h1
      revert hf
      rcases effectAt fs (walk cwd (fileName home name "edgeList".toList (grphType o.typing g.directed) o.suffix))
        (edgeEffect o.edgeInfo o.allSame eo g) with ⟨fs', _ | e⟩
      · intro hf
        dsimp only at hf ⊢
        rw [effectAt_frame _ _ _ l h2, hf]
      · intro hf; exact hf

theorem edge_ne_node (b1 b2 : Str) (t1 t2 d1 d2 : Bool) (s : Str) :
    graphFile b1 "edgeList" t1 d1 s ≠ graphFile b2 "nodeAttributes" t2 d2 s := by
  intro h
  unfold graphFile at h
  have h := List.append_cancel_right (List.append_cancel_right h)
  have h := congrArg List.reverse h
  cases t1 <;> cases t2 <;> cases d1 <;> cases d2 <;> simp [List.reverse_append] at h

theorem file_inj (kind : String) (hk : kind = "edgeList" ∨ kind = "nodeAttributes") (b1 b2 : Str) (t1 t2 d1 d2 : Bool) (s : Str)
    (h : graphFile b1 kind t1 d1 s = graphFile b2 kind t2 d2 s) : b1 = b2 ∧ t1 = t2 ∧ (t1 = true → d1 = d2) := by
  unfold graphFile at h
  have h := List.append_cancel_right (List.append_cancel_right h)
  have h := congrArg List.reverse h
  rcases hk with rfl | rfl <;> cases t1 <;> cases t2 <;> cases d1 <;> cases d2 <;> simp [List.reverse_append] at h <;> simp [h]

/-- **C98**, which files are written. For a name whose last part `b` is a name, in the directory `dir`, the two files are `b_edgeList.suffix`
and `b_nodeAttributes.suffix` in that directory (with the type of the graph if `typing` is set), they are two files, no other file changes,
and no directory is made. With `overwrite = False` nothing is written and an `OSError` is raised if one of them is there. Otherwise, with the
default options and if the files can be written, both are written with the texts of the graph. -/
theorem C98_files_partial (hc : Names cwd) {name dir b : Str} (h : InDir name dir b) (ht : NoTilde name) (o : Opts) (hs : '/' ∉ o.suffix)
    (eo no : List Str) (g : G) (fs : FS) :
    let E := walk cwd dir ++ [graphFile b "edgeList" o.typing g.directed o.suffix]
    let N := walk cwd dir ++ [graphFile b "nodeAttributes" o.typing g.directed o.suffix]
    let r := writeGraph home cwd o name eo no g fs
    E ≠ N ∧ (∀ l, l ≠ E → l ≠ N → r.1.file l = fs.file l) ∧ r.1.dir = fs.dir ∧
    (o.overwrite = false → (fs.file E).isSome ∨ (fs.file N).isSome → r = (fs, some .osError)) ∧
    (o.edgeInfo = true → o.allSame = false → o.overwrite = true ∨ (fs.file E = none ∧ fs.file N = none) → fs.CanWrite E → fs.CanWrite N →
      r.2 = none ∧ ∃ texts, Verif.Model.GraphFiles.writeGraph true false eo no g = .ok texts ∧
        r.1.file E = some texts.1 ∧ r.1.file N = some texts.2) := by
  have hE := walk_graphFile home (cwd := cwd) h ht "edgeList" (by decide) o.typing g.directed o.suffix hs
  have hN := walk_graphFile home (cwd := cwd) h ht "nodeAttributes" (by decide) o.typing g.directed o.suffix hs
  dsimp only
  have hne : walk cwd dir ++ [graphFile b "edgeList" o.typing g.directed o.suffix] ≠
      walk cwd dir ++ [graphFile b "nodeAttributes" o.typing g.directed o.suffix] := by
    intro hh
    have := List.append_cancel_left hh
    exact edge_ne_node _ _ _ _ _ _ _ (by simpa using this)
  have hframe := fun l => frame home hc o name eo no g fs l
  rw [hE, hN] at hframe
  have hw : writeGraph home cwd o name eo no g fs =
      if o.overwrite = false ∧ (fs.file (walk cwd dir ++ [graphFile b "edgeList" o.typing g.directed o.suffix])).isSome then (fs, some .osError)
      else if o.overwrite = false ∧ (fs.file (walk cwd dir ++ [graphFile b "nodeAttributes" o.typing g.directed o.suffix])).isSome then
        (fs, some .osError)
      else
        match effectAt fs (walk cwd dir ++ [graphFile b "edgeList" o.typing g.directed o.suffix]) (edgeEffect o.edgeInfo o.allSame eo g) with
        | (fs', some e) => (fs', some e)
        | (fs', none) =>
          effectAt fs' (walk cwd dir ++ [graphFile b "nodeAttributes" o.typing g.directed o.suffix]) (nodeEffect o.allSame no g) := by
    unfold writeGraph
    dsimp only
    rw [openedAbs_eq home cwd hc, openedNodes_eq home cwd hc, hE, hN]
    rfl
  generalize walk cwd dir ++ [graphFile b "edgeList" o.typing g.directed o.suffix] = E at *
  generalize walk cwd dir ++ [graphFile b "nodeAttributes" o.typing g.directed o.suffix] = N at *
  refine ⟨hne, fun l h1 h2 => hframe l h1 h2, ?_, ?_, ?_⟩
  · rw [hw]
    split
    · rfl
    · split
      · rfl
      · have hd := effectAt_dir fs E (edgeEffect o.edgeInfo o.allSame eo g)
        revert hd
        rcases effectAt fs E (edgeEffect o.edgeInfo o.allSame eo g) with ⟨fs', _ | e⟩
        · intro hd; dsimp only at hd ⊢; rw [effectAt_dir, hd]
        · intro hd; exact hd
  · intro ho hex
    rw [hw]
    rcases hex with hex | hex
    · rw [if_pos ⟨ho, hex⟩]
    · split
      · rfl
      · rw [if_pos ⟨ho, hex⟩]
  · intro he ha ho hcE hcN
    have hn1 : ¬ (o.overwrite = false ∧ (fs.file E).isSome = true) := by
      rintro ⟨h1, h2⟩
      rcases ho with ho | ⟨ho, _⟩
      · rw [h1] at ho; cases ho
      · rw [ho] at h2; cases h2
    have hn2 : ¬ (o.overwrite = false ∧ (fs.file N).isSome = true) := by
      rintro ⟨h1, h2⟩
      rcases ho with ho | ⟨_, ho⟩
      · rw [h1] at ho; cases ho
      · rw [ho] at h2; cases h2
    rw [hw, if_neg hn1, if_neg hn2, he, ha]
    have h1 : ∃ te, Verif.Model.GraphFiles.writeEdgeList true false eo g = .ok te := by
      unfold Verif.Model.GraphFiles.writeEdgeList
      split
      · exact ⟨_, rfl⟩
      · exact ⟨_, rfl⟩
    have h2 : ∃ tn, Verif.Model.GraphFiles.writeNodeAttributeFile false no g = .ok tn := by
      unfold Verif.Model.GraphFiles.writeNodeAttributeFile
      split
      · exact ⟨_, rfl⟩
      · exact ⟨_, rfl⟩
    obtain ⟨te, h1⟩ := h1
    obtain ⟨tn, h2⟩ := h2
    have e1 : edgeEffect true false eo g = (some te, none) := by unfold edgeEffect; rw [h1]
    have e2 : nodeEffect false no g = (some tn, none) := by unfold nodeEffect; rw [h2]
    rw [e1, e2, effectAt_some fs E te none hcE]
    dsimp only [Option.map_none]
    have hcN' : ({ fs with file := fun m => if m = E then some te else fs.file m } : FS).CanWrite N := hcN
    rw [effectAt_some _ N tn none hcN']
    refine ⟨rfl, (te, tn), ?_, ?_, ?_⟩
    · simp [Verif.Model.GraphFiles.writeGraph, h1, h2, bind, Except.bind, pure, Except.pure]
    · simp [hne]
    · simp

/-- **C98**, and reading them gives the graph back as far as the files hold it (C43), under any path that leads to them. -/
theorem C98_read_back (hc : Names cwd) {name dir b : Str} (h : InDir name dir b) (ht : NoTilde name) (o : Opts) (hs : '/' ∉ o.suffix)
    (eo no : List Str) (g : G) (fs : FS) (he : o.edgeInfo = true) (ha : o.allSame = false)
    (hg : g.WF) (hw : Verif.Props.Writable g) (hno : Verif.Props.Columns no (g.nodes.map Prod.snd))
    (heo : Verif.Props.Columns eo (g.edges.map Prod.snd))
    (pe pn : Str) (hpe : walk cwd pe = walk cwd dir ++ [graphFile b "edgeList" o.typing g.directed o.suffix])
    (hpn : walk cwd pn = walk cwd dir ++ [graphFile b "nodeAttributes" o.typing g.directed o.suffix])
    (ho : o.overwrite = true ∨ (fs.file (walk cwd pe) = none ∧ fs.file (walk cwd pn) = none))
    (hcE : fs.CanWrite (walk cwd pe)) (hcN : fs.CanWrite (walk cwd pn)) :
    readGraph home cwd (writeGraph home cwd o name eo no g fs).1 g.directed pe pn =
      .ok ⟨g.directed, g.nodes.map (fun n => (n.1, Verif.Props.readBack no n.2)), g.edges.map (fun e => (e.1, Verif.Props.readBack eo e.2))⟩ := by
  have hmain := C98_files_partial home hc h ht o hs eo no g fs
  dsimp only at hmain
  rw [← hpe, ← hpn] at hmain
  obtain ⟨_, _, _, _, h5⟩ := hmain
  obtain ⟨_, texts, h6, h7, h8⟩ := h5 he ha ho hcE hcN
  obtain ⟨files, h9, h10⟩ := Verif.Props.C43_round_trip_partial g hg hw no eo hno heo
  rw [h6] at h9
  cases h9
  generalize (writeGraph home cwd o name eo no g fs).1 = fs' at h7 h8
  unfold readGraph openRead
  rw [openedAbs_eq home cwd hc, openedAbs_eq home cwd hc, h7, h8]
  simp only [bind, Except.bind]
  unfold Verif.Model.GraphFiles.readGraph at h10
  simp only [bind, Except.bind] at h10
  revert h10
  rw [show Verif.Props.kID = Verif.Model.GraphFiles.kID from rfl, show Verif.Props.kSource = Verif.Model.GraphFiles.kSource from rfl,
    show Verif.Props.kTarget = Verif.Model.GraphFiles.kTarget from rfl]
  rcases (Csv.dictRead texts.2).foldlM (Verif.Model.GraphFiles.readNode Verif.Model.GraphFiles.kID) (Graph.empty g.directed) with e | g1
  · intro h10; cases h10
  · intro h10
    dsimp only at h10 ⊢
    rw [h10]

/-- **C98.** With `overwrite = False` no file that is there is changed, whatever the name and the options, and whatever happens. -/
theorem C98_kept (hc : Names cwd) (o : Opts) (ho : o.overwrite = false) (name : Str) (eo no : List Str) (g : G) (fs : FS) (l : Loc) (t : Str)
    (h : fs.file l = some t) : (writeGraph home cwd o name eo no g fs).1.file l = some t := by
  by_cases h1 : l = walk cwd (fileName home name "edgeList".toList (grphType o.typing g.directed) o.suffix)
  · unfold writeGraph
    dsimp only
    rw [if_pos ⟨ho, by rw [← h1, h]; rfl⟩, h]
  · by_cases h2 : l = walk cwd (fileName home name "nodeAttributes".toList (grphType o.typing g.directed) o.suffix)
    · unfold writeGraph
      dsimp only
      split
      · exact h
      · rw [if_pos ⟨ho, by rw [← h2, h]; rfl⟩, h]
    · rw [frame home hc o name eo no g fs l h1 h2, h]

/-- **C98.** Two graphs with names that lead to different places, or of which one is directed and the other is not and `typing` is set, do not
touch each other's files. -/
theorem C98_apart (hc : Names cwd) {name₁ dir₁ b₁ name₂ dir₂ b₂ : Str} (h₁ : InDir name₁ dir₁ b₁) (h₂ : InDir name₂ dir₂ b₂)
    (ht₂ : NoTilde name₂) (o₁ o₂ : Opts) (hs : o₁.suffix = o₂.suffix) (hs' : '/' ∉ o₂.suffix)
    (eo no : List Str) (g₁ g₂ : G) (fs : FS)
    (hne : walk cwd name₁ ≠ walk cwd name₂ ∨ (o₁.typing = true ∧ o₂.typing = true ∧ g₁.directed ≠ g₂.directed))
    (kind : String) (hk : kind = "edgeList" ∨ kind = "nodeAttributes") :
    (writeGraph home cwd o₂ name₂ eo no g₂ fs).1.file (walk cwd dir₁ ++ [graphFile b₁ kind o₁.typing g₁.directed o₁.suffix]) =
      fs.file (walk cwd dir₁ ++ [graphFile b₁ kind o₁.typing g₁.directed o₁.suffix]) := by
  have key : ∀ kind' : String, kind' = "edgeList" ∨ kind' = "nodeAttributes" →
      walk cwd dir₁ ++ [graphFile b₁ kind o₁.typing g₁.directed o₁.suffix] ≠
        walk cwd dir₂ ++ [graphFile b₂ kind' o₂.typing g₂.directed o₂.suffix] := by
    intro kind' hk' heq
    have h1 := List.append_inj' heq rfl
    have h2 : graphFile b₁ kind o₁.typing g₁.directed o₂.suffix = graphFile b₂ kind' o₂.typing g₂.directed o₂.suffix := by
      have := h1.2
      rw [hs] at this
      simpa using this
    have hkk : kind = kind' := by
      rcases hk with rfl | rfl <;> rcases hk' with rfl | rfl
      · rfl
      · exact absurd h2 (edge_ne_node _ _ _ _ _ _ _)
      · exact absurd h2.symm (edge_ne_node _ _ _ _ _ _ _)
      · rfl
    subst hkk
    obtain ⟨e1, e2, e3⟩ := file_inj kind hk _ _ _ _ _ _ _ h2
    rcases hne with hne | ⟨ht1, _, hd⟩
    · apply hne
      rw [walk_inDir h₁, walk_inDir h₂, h1.1, e1]
    · exact hd (e3 ht1)
  apply (C98_files_partial home hc h₂ ht₂ o₂ hs' eo no g₂ fs).2.1
  · exact key _ (.inl rfl)
  · exact key _ (.inr rfl)

/-- **C98**, against what is asked for: with `edgeInfo = False` the call raises for every graph with an edge, but an edge list that was there is
lost; the file then has the header only, and no other file changes. -/
theorem C98_lost (hc : Names cwd) {name dir b : Str} (h : InDir name dir b) (ht : NoTilde name) (o : Opts) (hs : '/' ∉ o.suffix)
    (eo no : List Str) (g : G) (fs : FS) (he : o.edgeInfo = false) (hg : g.edges ≠ []) (ho : o.overwrite = true)
    (hcE : fs.CanWrite (walk cwd dir ++ [graphFile b "edgeList" o.typing g.directed o.suffix])) :
    let E := walk cwd dir ++ [graphFile b "edgeList" o.typing g.directed o.suffix]
    let r := writeGraph home cwd o name eo no g fs
    r.2 = some (.inner .unboundLocalError) ∧ r.1.file E = some "\"Source\",\"Target\"\r\n".toList ∧ ∀ l, l ≠ E → r.1.file l = fs.file l := by
  have hE := walk_graphFile home (cwd := cwd) h ht "edgeList" (by decide) o.typing g.directed o.suffix hs
  dsimp only
  have hem : g.edges.isEmpty = false := by
    cases hl : g.edges with
    | nil => exact absurd hl hg
    | cons x l => rfl
  have e1 : edgeEffect false o.allSame eo g = (some "\"Source\",\"Target\"\r\n".toList, some .unboundLocalError) := by
    unfold edgeEffect Verif.Model.GraphFiles.writeEdgeList
    rw [hem]
    rfl
  generalize "\"Source\",\"Target\"\r\n".toList = header at *
  have hw : writeGraph home cwd o name eo no g fs =
      (({ fs with file := fun m => if m = walk cwd dir ++ [graphFile b "edgeList" o.typing g.directed o.suffix] then some header else fs.file m } : FS), some (.inner .unboundLocalError)) := by
    unfold writeGraph
    dsimp only
    rw [openedAbs_eq home cwd hc, hE, if_neg (by simp [ho]), if_neg (by simp [ho]), he, e1, effectAt_some _ _ _ _ hcE]
    rfl
  rw [hw]
  refine ⟨rfl, by simp, ?_⟩
  intro l hl
  simp [hl]

theorem slashes_append (q t : Str) (h : ∃ c ∈ q, c ≠ '/') : Path.slashes (q ++ t) = Path.slashes q := by
  obtain ⟨c, hc, hne⟩ := h
  match q with
  | [] => simp at hc
  | [a] =>
    simp at hc; subst hc
    rw [(slashes_pos _).2 (by simp [hne]), (slashes_pos _).2 (by simp [hne])]
  | [a, b] =>
    by_cases ha : a = '/'
    · subst ha
      have hb : b ≠ '/' := by
        rcases List.mem_cons.1 hc with h | h
        · exact absurd h hne
        · simp at h; subst h; exact hne
      simp [Path.slashes, hb]
    · rw [(slashes_pos _).2 (by simp [ha]), (slashes_pos _).2 (by simp [ha])]
  | a :: b :: d :: q => simp [Path.slashes]

theorem normpath_slash {name dir b : Str} (h : InDir name dir b) : Path.normpath (name ++ ['/']) = Path.normpath name := by
  have hne : ∃ c ∈ name, c ≠ '/' := by
    obtain ⟨rfl, _, hs, hb, _⟩ := h
    cases b with
    | nil => exact absurd rfl hb
    | cons z b =>
      refine ⟨z, by simp, ?_⟩
      rintro rfl
      simp at hs
  have hnn : name ≠ [] := by
    rintro rfl
    obtain ⟨c, hc, _⟩ := hne
    simp at hc
  have hp : Path.normParts (name ++ ['/']) = Path.normParts name := by
    unfold Path.normParts
    rw [head_append _ _ hnn, split_append, split_nil, List.foldl_append]
    rfl
  unfold Path.normpath
  rw [hp, slashes_append _ _ hne]

/-- **C98**, against what is asked for: a name that ends with a slash is not a directory to write into. The files are those of the name without
the slash: `out/` gives `out_edgeList.csv`, not `out/edgeList.csv`. -/
theorem C98_trailing_slash {name dir b : Str} (h : InDir name dir b) (o : Opts) (eo no : List Str) (g : G) (fs : FS) :
    writeGraph home cwd o (name ++ ['/']) eo no g fs = writeGraph home cwd o name eo no g fs := by
  unfold writeGraph fileName
  rw [normpath_slash h]

/-- **C98**, against what is asked for: without a name the files are called `._edgeList.csv` and `._nodeAttributes.csv`, in the current
directory; no other file changes. -/
theorem C98_no_name (hc : Names cwd) (o : Opts) (hs : '/' ∉ o.suffix) (eo no : List Str) (g : G) (fs : FS)
    (l : Loc) (h1 : l ≠ cwd ++ [graphFile ['.'] "edgeList" o.typing g.directed o.suffix])
    (h2 : l ≠ cwd ++ [graphFile ['.'] "nodeAttributes" o.typing g.directed o.suffix]) :
    (writeGraph home cwd o [] eo no g fs).1.file l = fs.file l := by
  have hn : Path.normpath [] = ['.'] := by decide
  have hname : ∀ kind : String, '/' ∉ kind.toList →
      walk cwd (fileName home [] kind.toList (grphType o.typing g.directed) o.suffix) = cwd ++ [graphFile ['.'] kind o.typing g.directed o.suffix] := by
    intro kind hk
    have e : fileName home [] kind.toList (grphType o.typing g.directed) o.suffix = graphFile ['.'] kind o.typing g.directed o.suffix := by
      unfold fileName
      rw [hn, expanduser_id _ _ (by decide)]
      rfl
    rw [e]
    have hty : '/' ∉ grphType o.typing g.directed := by
      unfold grphType
      cases o.typing <;> cases g.directed <;> decide
    have hg : graphFile ['.'] kind o.typing g.directed o.suffix =
        '.' :: '_' :: (kind.toList ++ grphType o.typing g.directed ++ ['.'] ++ o.suffix) := rfl
    rw [hg]
    generalize grphType o.typing g.directed = typ at hty
    generalize kind.toList = K at hk
    have hin : InDir ('.' :: '_' :: (K ++ typ ++ ['.'] ++ o.suffix)) [] ('.' :: '_' :: (K ++ typ ++ ['.'] ++ o.suffix)) :=
      ⟨rfl, .inl rfl, by simp [hs, hk, hty], by simp, by simp, by simp⟩
    rw [walk_inDir hin]
    rfl
  apply frame home hc
  · rw [hname "edgeList" (by decide)]; exact h1
  · rw [hname "nodeAttributes" (by decide)]; exact h2

/-- **C98**, against what is asked for: `..` is taken away before `~` is replaced, so `~/../x` is `x` in the current directory and not a
neighbour of the home directory. -/
theorem C98_home_parent (o : Opts) (rest : Str) (h : rest.head? ≠ some '/') (eo no : List Str) (g : G) (fs : FS) :
    writeGraph home cwd o ("~/../".toList ++ rest) eo no g fs = writeGraph home cwd o rest eo no g fs := by
  have hn : Path.normpath ("~/../".toList ++ rest) = Path.normpath rest := by
    have hsp : Str.split ['/'] ("~/../".toList ++ rest) = [['~'], ['.', '.']] ++ Str.split ['/'] rest := by
      have e : "~/../".toList ++ rest = ['~'] ++ '/' :: (['.', '.'] ++ '/' :: rest) := by simp
      rw [e, split_append, split_append]
      rfl
    have hh : (rest.head? == some '/') = false := by simpa using h
    have hp : Path.normParts ("~/../".toList ++ rest) = Path.normParts rest := by
      unfold Path.normParts
      rw [hsp, List.foldl_append, hh]
      rfl
    unfold Path.normpath
    rw [hp, (slashes_pos rest).2 h]
    rfl
  unfold writeGraph fileName
  rw [hn]

/-! ## Examples -/

/-- A file system with the directories `/`, `/w` and `/w/out`. -/
def fs0 : FS := ⟨fun l => if l = ["w".toList, "out".toList, "net_edgeList.csv".toList] then some "old".toList else none,
  fun l => decide (l = [] ∨ l = ["w".toList] ∨ l = ["w".toList, "out".toList])⟩

def cwd0 : Loc := ["w".toList]

theorem names0 : Names cwd0 := by unfold Names cwd0; decide

theorem inDir0 : InDir "out/./net".toList "out/./".toList "net".toList := ⟨by decide, .inr ⟨"out/.".toList, by decide⟩, by decide, by decide⟩

theorem noTilde0 : NoTilde "out/./net".toList := by unfold NoTilde; decide +kernel

def g0 : G := ⟨false, [("a".toList, []), ("b".toList, [])], [(("a".toList, "b".toList), [("weight".toList, .num 2)])]⟩

/-- The hypotheses of `C98_files_partial` for writing over an old file. -/
example : fs0.CanWrite (walk cwd0 "out/./".toList ++ [graphFile "net".toList "edgeList" false false "csv".toList]) ∧
    fs0.CanWrite (walk cwd0 "out/./".toList ++ [graphFile "net".toList "nodeAttributes" false false "csv".toList]) := by
  unfold FS.CanWrite; decide +kernel

example : (writeGraph (fun _ => none) cwd0 ⟨true, false, "csv".toList, false, false⟩ "out/./net".toList ["weight".toList] [] g0 fs0).2 =
    some .osError := by decide +kernel

example : ((writeGraph (fun _ => none) cwd0 ⟨true, false, "csv".toList, true, false⟩ "out/./net".toList ["weight".toList] [] g0 fs0).1.file
    ["w".toList, "out".toList, "net_edgeList.csv".toList]).map String.ofList = some "\"Source\",\"Target\",\"weight\"\r\n\"a\",\"b\",2\r\n" := by
  decide +kernel

example : ((writeGraph (fun _ => none) cwd0 ⟨true, true, "csv".toList, true, false⟩ "out/".toList ["weight".toList] [] g0 fs0).1.file
    ["w".toList, "out_nodeAttributes_undirected.csv".toList]).map String.ofList = some "\"ID\"\r\n\"a\"\r\n\"b\"\r\n" := by
  decide +kernel

/-- The hypotheses of `C98_read_back`: a directed graph written over an old file and read under other paths. -/
example : readGraph (fun _ => none) cwd0
    (writeGraph (fun _ => none) cwd0 ⟨true, false, "csv".toList, true, false⟩ "out/./net".toList [['w']] [['t'], ['c']] Verif.Props.exF fs0).1 true
    "/w/out/net_edgeList.csv".toList "../w//out/net_nodeAttributes.csv".toList =
    .ok ⟨true, Verif.Props.exF.nodes.map (fun n => (n.1, Verif.Props.readBack [['t'], ['c']] n.2)),
      Verif.Props.exF.edges.map (fun e => (e.1, Verif.Props.readBack [['w']] e.2))⟩ := by
  obtain ⟨h1, h2, h3, h4⟩ := Verif.Props.exF_ok
  exact C98_read_back _ names0 inDir0 noTilde0 ⟨true, false, "csv".toList, true, false⟩ (by decide) [['w']] [['t'], ['c']] Verif.Props.exF fs0 rfl rfl h1 h2 h3 h4
    _ _ (by decide +kernel) (by decide +kernel) (.inl rfl) (by unfold FS.CanWrite; decide +kernel) (by unfold FS.CanWrite; decide +kernel)

/-- The old file is lost when edges are asked for without their attributes. -/
example : ((writeGraph (fun _ => none) cwd0 ⟨false, false, "csv".toList, true, false⟩ "out/./net".toList ["weight".toList] [] g0 fs0).1.file
    ["w".toList, "out".toList, "net_edgeList.csv".toList]).map String.ofList = some "\"Source\",\"Target\"\r\n" := by
  have h := (C98_lost (fun _ => none) names0 inDir0 noTilde0 ⟨false, false, "csv".toList, true, false⟩ (by decide) ["weight".toList] [] g0 fs0 rfl
    (by simp [g0]) rfl (by unfold FS.CanWrite; decide +kernel)).2.1
  have e : ["w".toList, "out".toList, "net_edgeList.csv".toList] =
      walk cwd0 "out/./".toList ++ [graphFile "net".toList "edgeList" false g0.directed "csv".toList] := by decide +kernel
  rw [e, h]
  decide +kernel

/-- Two names for different places. -/
example : InDir "net".toList [] "net".toList ∧ walk cwd0 "net".toList ≠ walk cwd0 "out/./net".toList :=
  ⟨⟨rfl, .inl rfl, by decide, by decide⟩, by decide +kernel⟩

end Verif.Props.GraphPaths
