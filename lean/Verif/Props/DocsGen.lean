import Verif.Lemmas.DocsGen

/-!
# The documentation generator (C116, C117)

`metaknowledge-DocsGen` writes the pages of the documentation from what `inspect` says about the package. When it ends, which pages there are, what stands on
them and in which order (C116); how docstrings, links and arguments are shown (C117).
-/
set_option autoImplicit false
set_option linter.unusedSimpArgs false
namespace Verif.Props.DocsGen
open Verif.Py Verif.Model.DocsGen Verif.Spec.DocsGen Verif.Lemmas.DocsGen

/-! ## When the pages are written -/

/-- **C116**: the pages are written exactly if the package and its modules have docstrings, every function that is shown has arguments that can be shown, and no line
of a docstring is a single `>`. A function or class without a docstring does not stop the run. -/
theorem C116_ends (W : World) (hn : Named W) : (∃ fs, files W = .ok fs) ↔
    (∃ d, W.doc = some d ∧ Readable d) ∧ (∀ f ∈ W.members.filterMap publicFn, FnOk f) ∧ (∀ c ∈ W.members.filterMap (publicCls false), ClsOk c) ∧
      ∀ m ∈ W.modules, ModuleOk m := by
  show Ok (files W) ↔ _
  unfold files
  rw [ok_bind' _ _ ((∀ f ∈ W.members.filterMap publicFn, FnOk f) ∧ (∀ c ∈ W.members.filterMap (publicCls false), ClsOk c) ∧ ∀ m ∈ W.modules, ModuleOk m) (fun _ => ?_),
    overviewPage_ok]
  rw [ok_bind' _ _ ((∀ c ∈ W.members.filterMap (publicCls false), ClsOk c) ∧ ∀ m ∈ W.modules, ModuleOk m) (fun _ => ?_), functionsPage_ok]
  · simp only [mem_funcs]
  · intro c hc; exact hn true c ((mem_exceptions W c).1 hc)
  rw [ok_bind' _ _ (∀ m ∈ W.modules, ModuleOk m) (fun _ => ?_), ok_mapM]
  · refine and_congr_left (fun _ => ?_)
    simp only [mem_classes]
    refine forall₂_congr (fun c hc => ?_)
    rw [ok_bind' _ _ True (fun _ => ok_pure _), and_true]
    unfold classPage
    rw [ok_bind' _ _ True (fun _ => ok_pure _), and_true, processClass_ok W false c (hn false c hc)]
  rw [ok_bind' _ _ True (fun _ => ok_pure _), and_true, ok_mapM]
  refine forall₂_congr (fun m _ => ?_)
  rw [ok_bind' _ _ True (fun _ => ok_pure _), and_true, modulePage_ok]

theorem bigRow_ok (e : Fn × Option Str) : Ok (bigRow e) ↔ Arguments e.1.spec := by
  unfold bigRow
  rw [ok_bind' _ _ True (fun _ => ok_pure _), and_true, cleanargs_ok]

/-- **C116**: the single file is written exactly if the pages are and every public function a class does not have from its first base class has arguments that can be
shown. -/
theorem C116_single_ends (W : World) (hn : Named W) : (∃ s, single W = .ok s) ↔
    (∃ fs, files W = .ok fs) ∧ ∀ c ∈ W.members.filterMap (publicCls false), ∀ m ∈ c.members, Public m.fn.name → m.inFirst = false → m.fn.isFunction = true → Arguments m.fn.spec := by
  rw [C116_ends W hn]
  show Ok (single W) ↔ _
  unfold single
  set A := ∃ d, W.doc = some d ∧ Readable d
  set B := ∀ f ∈ W.members.filterMap publicFn, FnOk f
  set C := ∀ c ∈ W.members.filterMap (publicCls false), ClsOk c
  set D := ∀ m ∈ W.modules, ModuleOk m
  set E := ∀ c ∈ W.members.filterMap (publicCls false), ∀ m ∈ c.members, Public m.fn.name → m.inFirst = false → m.fn.isFunction = true → Arguments m.fn.spec
  have hD : ∀ x : List Str, Ok (W.modules.mapM (modulePage W true)) ↔ D := by
    intro _
    rw [ok_mapM]
    exact forall₂_congr (fun m _ => modulePage_ok W true m)
  have hC : Ok ((classes W).mapM (classPage W true)) ↔ C := by
    rw [ok_mapM]
    simp only [mem_classes]
    refine forall₂_congr (fun c hc => ?_)
    unfold classPage
    rw [ok_bind' _ _ True (fun _ => ok_pure _), and_true, processClass_ok W true c (hn false c hc)]
  have hB : Ok (functionsPage W true) ↔ B := by
    rw [functionsPage_ok]
    · simp only [mem_funcs]; rfl
    · intro c hc; exact hn true c ((mem_exceptions W c).1 hc)
  rw [ok_bind' _ _ ((B ∧ E) ∧ D ∧ A ∧ B ∧ C ∧ D) (fun _ => ?_)]
  · have h1 : Ok ((classes W).mapM (classRow W)) := by
      rw [ok_mapM]
      intro c hc
      unfold classRow
      rw [ok_bind' _ _ True (fun _ => ok_pure _), and_true]
      exact classArgs_ok W _ _ (hn false c ((mem_classes W c).1 hc))
    tauto
  · rw [ok_bind' _ _ (D ∧ A ∧ B ∧ C ∧ D) (fun _ => ?_)]
    · constructor
      · rintro ⟨h1, hd, ha, hb, hc, -⟩
        rw [ok_mapM] at h1
        refine ⟨⟨hb, ?_⟩, hd, ha, hb, hc, hd⟩
        intro c hcc m hm h2 h3 h4
        refine (bigRow_ok (m.fn, some c.name)).1 (h1 _ (List.mem_append_right _ (List.mem_flatMap.2 ⟨c, (mem_classes W c).2 hcc, ?_⟩)))
        unfold bigMethods
        refine List.mem_map.2 ⟨m, List.mem_filter.2 ⟨(sorted_perm _ _).mem_iff.2 hm, ?_⟩, rfl⟩
        unfold Public at h2
        simp [h2, h3, h4]
      · rintro ⟨⟨hb, he⟩, h⟩
        refine ⟨?_, h⟩
        rw [ok_mapM]
        intro x hx
        rw [bigRow_ok]
        rcases List.mem_append.1 hx with hx | hx
        · obtain ⟨f, hf, rfl⟩ := List.mem_map.1 hx
          exact (hb f ((mem_funcs W f).1 hf)).1
        · obtain ⟨c, hc, hx⟩ := List.mem_flatMap.1 hx
          unfold bigMethods at hx
          obtain ⟨m, hm, rfl⟩ := List.mem_map.1 hx
          obtain ⟨hm, hp⟩ := List.mem_filter.1 hm
          simp at hp
          exact he c ((mem_classes W c).1 hc) m ((sorted_perm _ _).mem_iff.1 hm) hp.1.1 hp.1.2 hp.2
    · rw [ok_bind' _ _ (A ∧ B ∧ C ∧ D) (fun _ => ?_)]
      · constructor
        · rintro ⟨-, ha, hb, hc, hd⟩; exact ⟨hd, ha, hb, hc, hd⟩
        · rintro ⟨hd, h⟩
          refine ⟨?_, h⟩
          rw [ok_mapM]
          intro m hm
          rw [ok_bind' _ _ True (fun _ => ok_pure _), and_true, ok_mapM]
          intro x hx
          obtain ⟨f, hf, rfl⟩ := List.mem_map.1 hx
          rw [bigRow_ok]
          obtain ⟨h1, h2⟩ := (mem_moduleFuncs m f).1 hf
          exact ((hd m hm).2 f h1 h2).1
      · rw [ok_bind' _ _ (B ∧ C ∧ D) (fun _ => ?_), overviewPage_ok]
        rw [ok_bind' _ _ (C ∧ D) (fun _ => ?_), hB]
        rw [ok_bind' _ _ D (fun _ => ?_), hC]
        rw [ok_bind' _ _ True (fun _ => ok_pure _), and_true, hD []]

/-! ## The pages -/

/-- What `files` gives when it ends normally. -/
theorem files_parts {W : World} {fs : List (Str × Str)} (h : files W = .ok fs) : ∃ o f cs ms, overviewPage W false = .ok o ∧ functionsPage W false = .ok f ∧
    List.Forall₂ (fun c (x : Str × Str) => ∃ p, classPage W false c = .ok p ∧ x = (W.filePrefix ++ c.name ++ ".md".toList, p ++ footer)) (classes W) cs ∧
    List.Forall₂ (fun (m : Module) (x : Str × Str) => ∃ p, modulePage W false m = .ok p ∧ x = (W.filePrefix ++ m.name ++ ".md".toList, p ++ footer)) W.modules ms ∧
    fs = (W.filePrefix ++ "overview.md".toList, o ++ footer) :: (W.filePrefix ++ "metaknowledge.md".toList, f ++ footer) :: (cs ++ ms) := by
  unfold files at h
  obtain ⟨o, ho, h⟩ := bind_ok h
  obtain ⟨f, hf, h⟩ := bind_ok h
  obtain ⟨cs, hcs, h⟩ := bind_ok h
  obtain ⟨ms, hms, h⟩ := bind_ok h
  rw [mapM_forall₂] at hcs hms
  refine ⟨o, f, cs, ms, ho, hf, hcs.imp ?_, hms.imp ?_, (Except.ok.inj h).symm⟩
  · intro c x hx
    obtain ⟨p, hp, hx⟩ := bind_ok hx
    exact ⟨p, hp, (Except.ok.inj hx).symm⟩
  · intro m x hx
    obtain ⟨p, hp, hx⟩ := bind_ok hx
    exact ⟨p, hp, (Except.ok.inj hx).symm⟩

theorem forall₂_map_eq {α β γ : Type} (R : α → β → Prop) (f : α → γ) (g : β → γ) (l : List α) (r : List β) (h : List.Forall₂ R l r) (hR : ∀ a b, R a b → g b = f a) :
    r.map g = l.map f := by
  induction h with
  | nil => rfl
  | cons h _ ih => rw [List.map_cons, List.map_cons, hR _ _ h, ih]

theorem forall₂_find {α β : Type} (R : α → β → Prop) (l : List α) (r : List β) (h : List.Forall₂ R l r) (a : α) (ha : a ∈ l) : ∃ b ∈ r, R a b := by
  induction h with
  | nil => cases ha
  | cons h _ ih =>
    rcases List.mem_cons.1 ha with rfl | ha
    · exact ⟨_, List.mem_cons_self, h⟩
    · obtain ⟨b, hb, hr⟩ := ih ha
      exact ⟨b, List.mem_cons_of_mem _ hb, hr⟩

/-- **C116**: there is a page for the package, one for its functions, one for every public class that is no exception, in the order of their places, and one for every
module; no other. -/
theorem C116_pages (W : World) (fs : List (Str × Str)) (h : files W = .ok fs) : ∃ cs : List Cls, cs.Perm (W.members.filterMap (publicCls false)) ∧
    cs.Pairwise (fun a b => placeText a.line ≤ placeText b.line) ∧
    fs.map Prod.fst = (W.filePrefix ++ "overview.md".toList) :: (W.filePrefix ++ "metaknowledge.md".toList) ::
      (cs.map (fun c => W.filePrefix ++ c.name ++ ".md".toList) ++ W.modules.map (fun m => W.filePrefix ++ m.name ++ ".md".toList)) := by
  obtain ⟨o, f, cs, ms, -, -, hcs, hms, rfl⟩ := files_parts h
  refine ⟨classes W, ?_, ?_, ?_⟩
  · rw [classes_eq]; exact (members_perm W).filterMap _
  · rw [classes_eq]
    refine List.Pairwise.filterMap _ ?_ (sorted_pairwise Member.line W.members)
    intro a b hab c hc d hd
    have : ∀ (m : Member) (x : Cls), x ∈ publicCls false m → m.line = x.line := by
      intro m x hx
      cases m with
      | cls y =>
        have hx : publicCls false (.cls y) = some x := hx
        unfold publicCls at hx
        dsimp only at hx
        split at hx
        · cases hx
        · cases hx; rfl
      | _ => cases hx
    rw [← this a c hc, ← this b d hd]
    exact hab
  · rw [List.map_cons, List.map_cons, List.map_append, forall₂_map_eq _ (fun c : Cls => W.filePrefix ++ c.name ++ ".md".toList) Prod.fst _ _ hcs (fun c x ⟨p, _, e⟩ => by rw [e]),
      forall₂_map_eq _ (fun m : Module => W.filePrefix ++ m.name ++ ".md".toList) Prod.fst _ _ hms (fun c x ⟨p, _, e⟩ => by rw [e])]

theorem shows_append {owner : Str} {es : List Entry} {x : Str} (a b : Str) (h : Shows owner es x) : Shows owner es (a ++ x ++ b) := by
  obtain ⟨s, m, r, l, e, hl⟩ := h
  exact ⟨a ++ s, m, r ++ b, l, by rw [e]; simp only [List.append_assoc], hl⟩

theorem shows_table (W : World) (header pre : Str) (fs : List Fn) (r : Str) (h : tableAndEntries W header pre fs = .ok r) : Shows pre (fs.map (entryOf W)) r := by
  refine ⟨"<h3>".toList ++ header ++ "</h3>\n\n".toList, [], [], makeLine, ?_, makeLine_prefix⟩
  rw [tableAndEntries_eq W _ _ _ _ h]
  simp only [List.append_assoc, List.append_nil, List.nil_append]

theorem functionsPage_shows (W : World) (single : Bool) (r : Str) (h : functionsPage W single = .ok r) : (∀ f ∈ funcs W, FnOk f) ∧ Shows [] ((funcs W).map (entryOf W)) r ∧
    ∀ c ∈ exceptions W, "<b>".toList ++ c.name ++ "</b>".toList <:+: r := by
  unfold functionsPage at h
  obtain ⟨rows, hrows, h⟩ := bind_ok h
  obtain ⟨excs, hexcs, h⟩ := bind_ok h
  obtain ⟨es, hes, h⟩ := bind_ok h
  have hok : ∀ f ∈ funcs W, FnOk f := fun f hf => (writeFunc_ok W f []).1 ((ok_mapM _ _).1 ⟨es, hes⟩ f hf)
  refine ⟨hok, ?_, ?_⟩
  · have h := (Except.ok.inj h).symm
    refine ⟨makeHeader (t "Base Functions") (t "The <i>metaknowledge</i> functions, for filtering reading and writing graphs") (t "functions") 1 single ++
      "<h3>".toList ++ t "The functions provided by <i>metaknowledge</i> are:" ++ "</h3>\n\n".toList,
      makeTable (t "The Exceptions defined by <i>metaknowledge</i> are:") excs, [], makeLine, ?_, makeLine_prefix⟩
    rw [h, rows_eq W _ _ hrows, entries_eq W _ _ _ hes]
    generalize makeTable (t "The Exceptions defined by <i>metaknowledge</i> are:") excs = x
    unfold makeTable
    rw [show t "</h3>\n\n<ol class=\"post-list\">\n" = "</h3>\n\n".toList ++ "<ol class=\"post-list\">\n".toList by decide +kernel]
    simp only [t, List.append_assoc, List.append_nil]
  · intro c hc
    rw [mapM_forall₂] at hexcs
    obtain ⟨row, hrow, hr⟩ := forall₂_find _ _ _ hexcs c hc
    unfold simpleRow at hr
    obtain ⟨a, -, hr⟩ := bind_ok hr
    have hr := (Except.ok.inj hr).symm
    have h1 : "<b>".toList ++ c.name ++ "</b>".toList <:+: row := by
      refine ⟨"<li><article>".toList, a ++ "</article></li>".toList, ?_⟩
      rw [hr, show t "<li><article><b>" = "<li><article>".toList ++ "<b>".toList by decide]
      simp only [t, List.append_assoc]
    have hj : ∀ (l : List Str), row ∈ l → row <:+: Str.join (t "\n") l := by
      intro l hl
      induction l with
      | nil => cases hl
      | cons a l ih =>
        by_cases hnil : l = []
        · subst hnil
          rw [List.mem_singleton.1 hl]
          exact List.infix_refl _
        · rw [Str.join_cons _ _ _ hnil]
          rcases List.mem_cons.1 hl with rfl | hl
          · exact ⟨[], t "\n" ++ Str.join (t "\n") l, by simp only [List.nil_append, List.append_assoc]⟩
          · exact (ih hl).trans ⟨a ++ t "\n", [], by simp only [List.append_nil]⟩
    refine h1.trans ((hj excs hrow).trans ?_)
    rw [← Except.ok.inj h]
    unfold makeTable
    refine List.IsInfix.trans ?_ (List.infix_append _ _ _)
    exact ⟨_, _, rfl⟩

theorem funcs_perm (W : World) : (funcs W).Perm (W.members.filterMap publicFn) := by
  rw [funcs_eq]; exact (members_perm W).filterMap _

theorem funcs_pairwise (W : World) : (funcs W).Pairwise (fun a b => placeText a.line ≤ placeText b.line) := by
  rw [funcs_eq]
  refine List.Pairwise.filterMap _ ?_ (sorted_pairwise Member.line W.members)
  intro a b hab c hc d hd
  have : ∀ (m : Member) (x : Fn), x ∈ publicFn m → m.line = x.line := by
    intro m x hx
    cases m with
    | fn y =>
      have hx : publicFn (.fn y) = some x := hx
      unfold publicFn at hx
      dsimp only at hx
      split at hx
      · cases hx
      · cases hx; rfl
    | _ => cases hx
  rw [← this a c hc, ← this b d hd]
  exact hab

/-- **C116**: the page of the functions has every public function of the package once, in the order of their places, in a table and with an entry; and the names of the
public exceptions. -/
theorem C116_functions (W : World) (fs : List (Str × Str)) (h : files W = .ok fs) : ∃ text, (W.filePrefix ++ "metaknowledge.md".toList, text) ∈ fs ∧
    (∃ gs es, gs.Perm (W.members.filterMap publicFn) ∧ gs.Pairwise (fun a b => placeText a.line ≤ placeText b.line) ∧
      List.Forall₂ (About (subLinks W.ws false 99 0)) gs es ∧ Shows [] es text) ∧
    ∀ c ∈ W.members.filterMap (publicCls true), "<b>".toList ++ c.name ++ "</b>".toList <:+: text := by
  obtain ⟨o, f, cs, ms, -, hf, -, -, rfl⟩ := files_parts h
  obtain ⟨h1, h2, h3⟩ := functionsPage_shows W false f hf
  refine ⟨f ++ footer, List.mem_cons_of_mem _ List.mem_cons_self, ⟨funcs W, (funcs W).map (entryOf W), funcs_perm W, funcs_pairwise W, about_all W _ h1, ?_⟩, ?_⟩
  · exact shows_append [] footer h2
  · intro c hc
    exact (h3 c ((mem_exceptions W c).2 hc)).trans (List.prefix_append _ _).isInfix

/-- **C116**: the page of a module has its docstring and every public function of the module once. -/
theorem C116_modules (W : World) (fs : List (Str × Str)) (h : files W = .ok fs) (m : Module) (hm : m ∈ W.modules) :
    ∃ text, (W.filePrefix ++ m.name ++ ".md".toList, text) ∈ fs ∧ (∃ d, m.doc = some d ∧ shownDoc (subLinks W.ws false 99 0) 3 d <:+: text) ∧
      ∃ gs es, gs.Perm (m.functions.filter (fun f => decide (f.name.head? ≠ some '_'))) ∧ gs.Pairwise (fun a b => placeText a.line ≤ placeText b.line) ∧
        List.Forall₂ (About (subLinks W.ws false 99 0)) gs es ∧ Shows (m.name ++ ".".toList) es text := by
  obtain ⟨o, f, cs, ms, -, -, -, hms, rfl⟩ := files_parts h
  obtain ⟨x, hx, p, hp, rfl⟩ := forall₂_find _ _ _ hms m hm
  have hok := (modulePage_ok W false m).1 ⟨p, hp⟩
  obtain ⟨⟨d, hd, -⟩, hfn⟩ := hok
  unfold modulePage at hp
  obtain ⟨dt, hdt, hp⟩ := bind_ok hp
  obtain ⟨r, hr, hp⟩ := bind_ok hp
  have hp := (Except.ok.inj hp).symm
  rw [hd] at hdt
  refine ⟨p ++ footer, List.mem_cons_of_mem _ (List.mem_cons_of_mem _ (List.mem_append_right _ hx)), ⟨d, hd, ?_⟩, moduleFuncs m, (moduleFuncs m).map (entryOf W), ?_, ?_, ?_, ?_⟩
  · rw [← cleanedDoc_eq W d 3 false dt hdt, hp]
    exact ⟨makeHeader m.name (makeBlurb W m.name) (t "module") 3 false ++
      (t "\n# [" ++ m.name ++ t "]({{ site.baseurl }}{{ page.url }}#" ++ m.name ++ t ")\n\n"), t "\n\n" ++ r ++ footer, by simp only [List.append_assoc]⟩
  · exact (sorted_perm Fn.line m.functions).filter _
  · exact List.Pairwise.filter _ (sorted_pairwise Fn.line m.functions)
  · exact about_all W _ (fun f hf => hfn f ((mem_moduleFuncs m f).1 hf).1 ((mem_moduleFuncs m f).1 hf).2)
  · rw [hp]
    have := shows_append (makeHeader m.name (makeBlurb W m.name) (t "module") 3 false ++
      (t "\n# [" ++ m.name ++ t "]({{ site.baseurl }}{{ page.url }}#" ++ m.name ++ t ")\n\n") ++ (dt ++ t "\n\n")) footer (shows_table W _ _ _ _ hr)
    exact this

theorem methods_spec (c : Cls) : ∃ ms : List Meth, ms.Perm (shownMembers c) ∧ ms.Pairwise (fun a b => placeText a.fn.line ≤ placeText b.fn.line) ∧ methods c = ms.map Meth.fn := by
  classical
  refine ⟨(sortedByLine (fun m => m.fn.line) c.members).filter (fun m =>
    if m.fn.name.head? = some '_' ∨ m.inBases = true ∨ m.fn.name = t "with_traceback" then decide (m.fn.name ∈ c.documented) else m.fn.isFunction), ?_, ?_, rfl⟩
  · refine ((sorted_perm (fun m : Meth => m.fn.line) c.members).filter _).trans ?_
    unfold shownMembers
    refine List.Perm.of_eq (List.filter_congr (fun m hm => ?_))
    rw [Bool.eq_iff_iff, decide_eq_true_iff]
    rw [shown_iff]
    unfold Shown Public
    exact ⟨fun h => ⟨hm, h⟩, fun h => h.2⟩
  · exact List.Pairwise.filter _ (sorted_pairwise (fun m : Meth => m.fn.line) c.members)

theorem classPage_shows (W : World) (single : Bool) (c : Cls) (hn : ∀ n ∈ c.bases, NameOk n) (p : Str) (hp : classPage W single c = .ok p) :
    (∀ f ∈ methods c, FnOk f) ∧ anchor c.name <:+: p ∧ anchor (c.name ++ ".__init__".toList) <:+: p ∧
    c.doc.elim "# Needs to be written\n\n".toList (shownDoc (subLinks W.ws single 99 0) 4) <:+: p ∧
    (methods c ≠ [] → Shows (c.name ++ ".".toList) ((methods c).map (entryOf W)) p) := by
  unfold classPage at hp
  obtain ⟨q, hq, hp⟩ := bind_ok hp
  have hok := (processClass_ok W single c hn).1 ⟨q, hq⟩
  have hp := (Except.ok.inj hp).symm
  have hqp : q <:+: p := by rw [hp]; exact (List.suffix_append _ _).isInfix
  unfold processClass at hq
  obtain ⟨w, hw, hq⟩ := bind_ok hq
  have hq' : ∃ r, (if (methods c).length > 0 then tableAndEntries W (t "\nThe " ++ c.name ++ t " class has the following methods:") (c.name ++ t ".") (methods c) else .ok []) = .ok r ∧
      q = w ++ (if single then makeLine else []) ++ r := by
    dsimp only at hq
    split at hq
    · rename_i hl
      obtain ⟨r, hr, hq⟩ := bind_ok hq
      exact ⟨r, by rw [if_pos hl]; exact hr, (Except.ok.inj hq).symm⟩
    · rename_i hl
      obtain ⟨r, hr, hq⟩ := bind_ok hq
      exact ⟨r, by rw [if_neg hl]; exact hr, (Except.ok.inj hq).symm⟩
  obtain ⟨r, hr, hq⟩ := hq'
  have hwq : w <:+: p := by
    refine List.IsInfix.trans ?_ hqp
    rw [hq, List.append_assoc]
    exact (List.prefix_append _ _).isInfix
  unfold writeClass at hw
  obtain ⟨a, -, hw⟩ := bind_ok hw
  obtain ⟨i, -, hw⟩ := bind_ok hw
  obtain ⟨d, hd, hw⟩ := bind_ok hw
  have hw := (Except.ok.inj hw).symm
  have htitle : ∀ n a, anchor n <:+: makeTitle [] n a single := by
    intro n a
    unfold makeTitle anchor
    split
    · rw [show t "\"></a><small>" = "\"></a>".toList ++ "<small>".toList by decide]
      exact ⟨[], _, by simp only [t, List.nil_append, List.append_assoc]; rfl⟩
    · rw [show t "\"></a><small>" = "\"></a>".toList ++ "<small>".toList by decide]
      exact ⟨[], _, by simp only [t, List.nil_append, List.append_assoc]; rfl⟩
  refine ⟨fun f hf => ?_, (htitle c.name a).trans (List.IsInfix.trans ?_ hwq), (htitle _ i).trans (List.IsInfix.trans ?_ hwq), ?_, ?_⟩
  · obtain ⟨m, hm, rfl⟩ := (mem_methods c f).1 hf
    exact hok.2.2 m hm
  · rw [hw, List.append_assoc]; exact (List.prefix_append _ _).isInfix
  · rw [hw]; exact List.infix_append _ _ _
  · rw [← docOrNone_eq W c.doc 4 single d hd]
    refine List.IsInfix.trans ?_ hwq
    rw [hw]; exact (List.suffix_append _ _).isInfix
  · intro hne
    rw [if_pos (List.length_pos_iff.2 hne)] at hr
    have h1 := shows_append (makeHeader c.name (makeBlurb W c.name) (t "class") 2 single ++ (w ++ (if single then makeLine else []))) [] (shows_table W _ _ _ _ hr)
    rw [hp, hq]
    rw [List.append_nil, List.append_assoc] at h1
    exact h1

/-- **C116**: the page of a public class has anchors for the class and for `__init__`, the docstring, and every method that is to be shown once, in the order of their
places. -/
theorem C116_classes (W : World) (hn : Named W) (fs : List (Str × Str)) (h : files W = .ok fs) (c : Cls) (hc : c ∈ W.members.filterMap (publicCls false)) :
    ∃ text, (W.filePrefix ++ c.name ++ ".md".toList, text) ∈ fs ∧ anchor c.name <:+: text ∧ anchor (c.name ++ ".__init__".toList) <:+: text ∧
      c.doc.elim "# Needs to be written\n\n".toList (shownDoc (subLinks W.ws false 99 0) 4) <:+: text ∧
      ∃ ms es, ms.Perm (shownMembers c) ∧ ms.Pairwise (fun a b => placeText a.fn.line ≤ placeText b.fn.line) ∧
        List.Forall₂ (About (subLinks W.ws false 99 0)) (ms.map Meth.fn) es ∧ (ms ≠ [] → Shows (c.name ++ ".".toList) es text) := by
  obtain ⟨o, f, cs, ms, -, -, hcs, -, rfl⟩ := files_parts h
  obtain ⟨x, hx, p, hp, rfl⟩ := forall₂_find _ _ _ hcs c ((mem_classes W c).2 hc)
  obtain ⟨h1, h2, h3, h4, h5⟩ := classPage_shows W false c (hn false c hc) p hp
  obtain ⟨l, hl1, hl2, hl3⟩ := methods_spec c
  have hpp : p <:+: p ++ footer := (List.prefix_append _ _).isInfix
  refine ⟨p ++ footer, List.mem_cons_of_mem _ (List.mem_cons_of_mem _ (List.mem_append_left _ hx)), h2.trans hpp, h3.trans hpp, h4.trans hpp, l, (methods c).map (entryOf W), hl1,
    hl2, ?_, ?_⟩
  · rw [← hl3]; exact about_all W _ h1
  · intro hne
    exact shows_append [] footer (h5 (by rw [hl3]; intro e; exact hne (List.map_eq_nil_iff.1 e)))

/-! ## Order -/

/-- **C116**: what comes earlier on a page is not behind in its file, if the numbers of the lines have equally many digits. Missing: lines with different numbers of
digits, see `C116_order_wrong`. -/
theorem C116_order_partial (file : Str) (n k : Nat) (hl : (showNat n).length = (showNat k).length) (h : placeText (some (file, n)) ≤ placeText (some (file, k))) : n ≤ k :=
  placeText_le file n k hl h

/-- **C116**, not kept: the numbers of the lines are compared as texts. A function of line 9 never comes before one of line 10 of the same file. -/
theorem C116_order_wrong (W : World) (fs : List (Str × Str)) (h : files W = .ok fs) : ∃ text gs es, (W.filePrefix ++ "metaknowledge.md".toList, text) ∈ fs ∧
    gs.Perm (W.members.filterMap publicFn) ∧ List.Forall₂ (About (subLinks W.ws false 99 0)) gs es ∧ Shows [] es text ∧
    ∀ a b c f g file, f.line = some (file, 9) → g.line = some (file, 10) → gs ≠ a ++ f :: b ++ g :: c := by
  obtain ⟨text, ht, ⟨gs, es, h1, h2, h3, h4⟩, -⟩ := C116_functions W fs h
  refine ⟨text, gs, es, ht, h1, h3, h4, ?_⟩
  intro a b c f g file hf hg e
  rw [e] at h2
  have := (List.pairwise_append.1 h2).2.2 f (by simp) g (by simp)
  rw [hf, hg] at this
  have := (append_le file (showNat 9) (showNat 10)).1 this
  revert this
  decide

/-! ## The single file -/

theorem single_parts {W : World} {s : Str} (h : single W = .ok s) : ∃ f cps mps pre mid, functionsPage W true = .ok f ∧ (classes W).mapM (classPage W true) = .ok cps ∧
    W.modules.mapM (modulePage W true) = .ok mps ∧ s = pre ++ f ++ cps.flatten ++ (mps.flatten ++ mid) := by
  unfold single at h
  obtain ⟨cs, -, h⟩ := bind_ok h
  obtain ⟨big, -, h⟩ := bind_ok h
  obtain ⟨ms, -, h⟩ := bind_ok h
  obtain ⟨o, -, h⟩ := bind_ok h
  obtain ⟨f, hf, h⟩ := bind_ok h
  obtain ⟨cps, hcps, h⟩ := bind_ok h
  obtain ⟨mps, hmps, h⟩ := bind_ok h
  exact ⟨f, cps, mps, _, footer, hf, hcps, hmps, by rw [← List.append_assoc]; exact (Except.ok.inj h).symm⟩

/-- **C116**: the single file has the same entries for functions and methods as the pages. -/
theorem C116_single (W : World) (hn : Named W) (s : Str) (h : single W = .ok s) :
    (∃ gs es, gs.Perm (W.members.filterMap publicFn) ∧ List.Forall₂ (About (subLinks W.ws false 99 0)) gs es ∧ Shows [] es s) ∧
    ∀ c ∈ W.members.filterMap (publicCls false), anchor c.name <:+: s ∧ ∃ ms es, ms.Perm (shownMembers c) ∧
      List.Forall₂ (About (subLinks W.ws false 99 0)) (ms.map Meth.fn) es ∧ (ms ≠ [] → Shows (c.name ++ ".".toList) es s) := by
  obtain ⟨f, cps, mps, pre, mid, hf, hcps, -, rfl⟩ := single_parts h
  obtain ⟨h1, h2, -⟩ := functionsPage_shows W true f hf
  refine ⟨⟨funcs W, (funcs W).map (entryOf W), funcs_perm W, about_all W _ h1, ?_⟩, ?_⟩
  · have := shows_append pre (cps.flatten ++ (mps.flatten ++ mid)) h2
    rw [← List.append_assoc] at this
    exact this
  · intro c hc
    rw [mapM_forall₂] at hcps
    obtain ⟨p, hp, hcp⟩ := forall₂_find _ _ _ hcps c ((mem_classes W c).2 hc)
    obtain ⟨g1, g2, -, -, g5⟩ := classPage_shows W true c (hn false c hc) p hcp
    obtain ⟨x, y, e⟩ := List.append_of_mem hp
    have e' : pre ++ f ++ cps.flatten ++ (mps.flatten ++ mid) = (pre ++ f ++ x.flatten) ++ p ++ (y.flatten ++ (mps.flatten ++ mid)) := by
      rw [e]; simp only [List.flatten_append, List.flatten_cons, List.append_assoc]
    rw [e']
    obtain ⟨l, hl1, -, hl3⟩ := methods_spec c
    refine ⟨g2.trans ⟨_, _, rfl⟩, l, (methods c).map (entryOf W), hl1, by rw [← hl3]; exact about_all W _ g1, ?_⟩
    intro hne
    exact shows_append _ _ (g5 (by rw [hl3]; intro e; exact hne (List.map_eq_nil_iff.1 e)))

theorem entry_infix {owner : Str} {es : List Entry} {x : Str} (h : Shows owner es x) (e : Entry) (he : e ∈ es) : e.text owner <:+: x := by
  obtain ⟨s, m, r, l, hx, -⟩ := h
  obtain ⟨a, b, rfl⟩ := List.append_of_mem he
  rw [hx]
  refine ⟨s ++ "<ol class=\"post-list\">\n".toList ++ Str.join "\n".toList ((a ++ e :: b).map Entry.row) ++ "\n</ol>\n".toList ++ m ++
    (a.map (fun e => l ++ "\n\n".toList ++ e.text owner)).flatten ++ (l ++ "\n\n".toList), (b.map (fun e => l ++ "\n\n".toList ++ e.text owner)).flatten ++ r, ?_⟩
  simp only [List.map_append, List.map_cons, List.flatten_append, List.flatten_cons, List.append_assoc]

theorem about_find {W : World} {gs : List Fn} {es : List Entry} (h : List.Forall₂ (About (subLinks W.ws false 99 0)) gs es) (f : Fn) (hf : f ∈ gs) :
    ∃ e ∈ es, About (subLinks W.ws false 99 0) f e := forall₂_find _ _ _ h f hf

/-- **C116**, not kept: in the single file the names of functions still link to a page of the site. -/
theorem C116_single_links_wrong (W : World) (hn : Named W) (s : Str) (h : single W = .ok s) (f : Fn) (hf : f ∈ W.members.filterMap publicFn) :
    "**[<ins>".toList ++ f.name ++ "</ins>]({{ site.baseurl }}{{ page.url }}#".toList ++ f.name ++ ")**".toList <:+: s := by
  obtain ⟨⟨gs, es, h1, h2, h3⟩, -⟩ := C116_single W hn s h
  obtain ⟨e, he, ha⟩ := about_find h2 f (h1.mem_iff.2 hf)
  refine List.IsInfix.trans ?_ (entry_infix h3 e he)
  unfold Entry.text
  rw [ha.1, show "</small>**[<ins>".toList = "</small>".toList ++ "**[<ins>".toList by decide, show ")**(".toList = ")**".toList ++ "(".toList by decide]
  refine ⟨anchor f.name ++ "<small>".toList ++ [] ++ "</small>".toList, "(".toList ++ e.args.elim [] (fun a => "_".toList ++ a ++ "_".toList) ++ "):\n\n".toList ++ e.doc, ?_⟩
  simp only [List.append_assoc]

/-- **C116**, not kept: if two classes have a method of the same name, the single file has the anchor of that name twice, and the links to both lead to the first. -/
theorem C116_single_anchor_wrong (W : World) (hn : Named W) (s : Str) (h : single W = .ok s) (c d : Cls) (hc : c ∈ W.members.filterMap (publicCls false))
    (hd : d ∈ W.members.filterMap (publicCls false)) (hcd : c ≠ d) (m k : Meth) (hm : Shown c m) (hk : Shown d k) (hname : m.fn.name = k.fn.name) :
    ∃ x y z, s = x ++ anchor m.fn.name ++ y ++ anchor m.fn.name ++ z := by
  obtain ⟨f, cps, mps, pre, mid, -, hcps, -, rfl⟩ := single_parts h
  rw [mapM_forall₂] at hcps
  have key : ∀ (c : Cls) (m : Meth) p, c ∈ W.members.filterMap (publicCls false) → Shown c m → classPage W true c = .ok p → anchor m.fn.name <:+: p := by
    intro c m p hc hm hp
    obtain ⟨g1, -, -, -, g5⟩ := classPage_shows W true c (hn false c hc) p hp
    have hmem := (mem_methods c m.fn).2 ⟨m, hm, rfl⟩
    have := entry_infix (g5 (List.ne_nil_of_mem hmem)) (entryOf W m.fn) (List.mem_map.2 ⟨_, hmem, rfl⟩)
    refine List.IsInfix.trans ?_ this
    unfold Entry.text
    exact ⟨[], _, by simp only [List.nil_append, List.append_assoc]; rfl⟩
  -- two different members of a list stand at different places
  have two : ∀ (l : List Cls) (r : List Str), List.Forall₂ (fun c p => classPage W true c = .ok p) l r → c ∈ l → d ∈ l →
      ∃ x y z, r.flatten = x ++ anchor m.fn.name ++ y ++ anchor m.fn.name ++ z := by
    intro l r hr
    induction hr with
    | nil => intro h; cases h
    | @cons a p l r hap hr ih =>
      intro h1 h2
      have one : ∀ (e : Cls) (q : Meth), e ∈ W.members.filterMap (publicCls false) → Shown e q → q.fn.name = m.fn.name → e ∈ l → anchor m.fn.name <:+: r.flatten := by
        intro e q he hq hqn hel
        obtain ⟨b, hb, hbb⟩ := forall₂_find _ _ _ hr e hel
        obtain ⟨u, v, rfl⟩ := List.append_of_mem hb
        have := key e q b he hq hbb
        rw [hqn] at this
        refine this.trans ⟨u.flatten, v.flatten, ?_⟩
        simp only [List.flatten_append, List.flatten_cons, List.append_assoc]
      have glue : anchor m.fn.name <:+: p → anchor m.fn.name <:+: r.flatten → ∃ x y z, (p :: r).flatten = x ++ anchor m.fn.name ++ y ++ anchor m.fn.name ++ z := by
        rintro ⟨x, y, e⟩ ⟨u, v, e'⟩
        exact ⟨x, y ++ u, v, by rw [List.flatten_cons, ← e, ← e']; simp only [List.append_assoc]⟩
      rcases List.mem_cons.1 h1 with e1 | h1
      · rcases List.mem_cons.1 h2 with e2 | h2
        · exact absurd (e1.trans e2.symm) hcd
        · exact glue (key c m p hc hm (by rw [e1]; exact hap)) (one d k hd hk hname.symm h2)
      · rcases List.mem_cons.1 h2 with e2 | h2
        · refine glue ?_ (one c m hc hm rfl h1)
          rw [hname]
          exact key d k p hd hk (by rw [e2]; exact hap)
        · obtain ⟨x, y, z, e⟩ := ih h1 h2
          exact ⟨p ++ x, y, z, by rw [List.flatten_cons, e]; simp only [List.append_assoc]⟩
  obtain ⟨x, y, z, e⟩ := two _ _ hcps ((mem_classes W c).2 hc) ((mem_classes W d).2 hd)
  exact ⟨pre ++ f ++ x, y, z ++ (mps.flatten ++ mid), by rw [e]; simp only [List.append_assoc]⟩

/-! ## Docstrings, links and arguments -/

/-- **C117**: a docstring is shown line by line. Headings are lowered, a quoted line loses its mark, and every link leads to the name it was for; links stand apart and
there are at most 99 on a line. -/
theorem C117_doc (W : World) (hws : Blanks W.ws) (lvl : Nat) (single : Bool) (lines : List (List (Str × Link) × Str)) (hne : lines ≠ [])
    (happ : ∀ l ∈ lines, Apart W.ws l.1 l.2 ∧ l.1.length ≤ 99) (hnl : ∀ l ∈ lines, '\n' ∉ writeLine Link.written l.1 l.2)
    (hq : ∀ l ∈ lines, writeLine Link.written l.1 l.2 ≠ ">".toList) :
    cleanedDoc W (some (Str.join "\n".toList (lines.map (fun l => writeLine Link.written l.1 l.2)))) lvl single =
      .ok ((lines.map (fun l => shownLine lvl (writeLine (if single then Link.inFile else Link.onSite) l.1 l.2) ++ "\n".toList)).flatten ++ "\n\n".toList) := by
  have hsplit : Str.split "\n".toList (Str.join "\n".toList (lines.map (fun l => writeLine Link.written l.1 l.2))) = lines.map (fun l => writeLine Link.written l.1 l.2) := by
    refine Str.split_join_char '\n' _ (by simpa using hne) ?_
    intro p hp
    obtain ⟨l, hl, rfl⟩ := List.mem_map.1 hp
    exact hnl l hl
  have hread : Readable (Str.join "\n".toList (lines.map (fun l => writeLine Link.written l.1 l.2))) := by
    unfold Readable
    rw [hsplit]
    intro h
    obtain ⟨l, hl, e⟩ := List.mem_map.1 h
    exact hq l hl e
  obtain ⟨r, hr⟩ := (cleanedDoc_ok W _ lvl single).2 hread
  rw [hr, cleanedDoc_eq W _ lvl single r hr]
  unfold shownDoc
  rw [hsplit, List.map_map]
  refine congrArg (fun x : List Str => Except.ok (x.flatten ++ "\n\n".toList)) (List.map_congr_left (fun l hl => ?_))
  have ht : target single = if single then Link.inFile else Link.onSite := by
    funext x; unfold target; split <;> rfl
  rw [Function.comp_apply, subLinks_line W.ws hws single l.1 l.2 99 (happ l hl).2 (happ l hl).1, ht]

/-- **C117**, not kept: of two links with no blank between them only the second is changed; the first leads nowhere. -/
theorem C117_joined_wrong (W : World) (hws : Blanks W.ws) (lvl : Nat) (single : Bool) (a b : Link) (ha : LinkOk W.ws a) (hb : LinkOk W.ws b) (sep : Str)
    (hsep : ∀ c ∈ sep, W.ws c = false) (hnl : '\n' ∉ a.written ++ sep ++ b.written) :
    cleanedDoc W (some (a.written ++ sep ++ b.written)) lvl single = .ok (a.written ++ sep ++ (if single then b.inFile else b.onSite) ++ "\n\n\n".toList) := by
  let l : Link := ⟨a.shown ++ "](#".toList ++ a.owner ++ ".".toList ++ a.name ++ ")".toList ++ sep ++ "[".toList ++ b.shown, b.owner, b.name⟩
  have hl : LinkOk W.ws l := by
    refine ⟨⟨by simp [l], ?_⟩, hb.owner, hb.name⟩
    intro c hc
    have hlit : ∀ s : Str, (∀ c ∈ s, c ∈ "[](#.)".toList) → ∀ c ∈ s, W.ws c = false := fun s hs c hc => hws c (hs c hc)
    simp only [l, List.mem_append] at hc
    rcases hc with (((((((hc | hc) | hc) | hc) | hc) | hc) | hc) | hc) | hc
    · exact ha.shown.2 c hc
    · exact hlit _ (by decide) c hc
    · exact ha.owner.2.1 c hc
    · exact hlit _ (by decide) c hc
    · exact ha.name.2.1 c hc
    · exact hlit _ (by decide) c hc
    · exact hsep c hc
    · exact hlit _ (by decide) c hc
    · exact hb.shown.2 c hc
  have e1 : a.written ++ sep ++ b.written = l.written := by
    simp only [Link.written, l, List.append_assoc]
  have e2 : a.written ++ sep ++ (if single then b.inFile else b.onSite) = (if single then Link.inFile else Link.onSite) l := by
    cases single <;> simp only [Link.written, Link.inFile, Link.onSite, l, List.append_assoc, if_true, Bool.false_eq_true, if_false]
  have h := C117_doc W hws lvl single [([([], l)], [])] (by simp)
    (by
      intro x hx
      rw [List.mem_singleton.1 hx]
      refine ⟨⟨by simp, hl, ?_, by simp [Apart]⟩, by simp⟩
      intro c hc
      simp [writeLine] at hc)
    (by
      intro x hx
      rw [List.mem_singleton.1 hx]
      simp only [writeLine, List.nil_append, List.append_nil]
      rw [← e1]; exact hnl)
    (by
      intro x hx
      rw [List.mem_singleton.1 hx]
      simp only [writeLine, List.nil_append, List.append_nil]
      intro h
      have := congrArg List.head? h
      simp [Link.written] at this)
  simp only [List.map_cons, List.map_nil, writeLine, List.nil_append, List.append_nil, Str.join, List.flatten_cons, List.flatten_nil] at h
  rw [e1, h, e2]
  have hs : shownLine lvl ((if single then Link.inFile else Link.onSite) l) = (if single then Link.inFile else Link.onSite) l := by
    obtain ⟨w, hw⟩ : ∃ w, (if single then Link.inFile else Link.onSite) l = '[' :: w := by cases single <;> exact ⟨_, rfl⟩
    rw [hw]
    have hh : ¬ ('[' :: w).head? = some '#' := fun h => absurd (Option.some.inj h) (by decide)
    unfold shownLine
    rw [if_neg hh, if_neg (by rintro ⟨u, hu⟩; cases hu), if_neg (by rintro ⟨u, hu⟩; cases hu)]
  rw [hs, show "\n\n\n".toList = "\n".toList ++ "\n\n".toList by decide]
  simp only [List.append_assoc]

/-- **C117**, not kept: a docstring with an empty quoted line stops the run. -/
theorem C117_quote_wrong (W : World) (hn : Named W) (f : Fn) (hf : f ∈ W.members.filterMap publicFn) (d : Str) (hd : f.doc = some d) (hq : ">".toList ∈ Str.split "\n".toList d) :
    ∀ fs, files W ≠ .ok fs := by
  intro fs h
  exact (((C116_ends W hn).1 ⟨fs, h⟩).2.1 f hf).2 d hd hq

theorem infix_cons_ne {p : Char} {ps : Str} {x : Char} {s : Str} (h : p :: ps <:+: x :: s) (hx : p ≠ x) : p :: ps <:+: s := by
  rcases List.infix_cons_iff.1 h with ⟨u, hu⟩ | h
  · exact absurd (List.cons.inj hu).1 hx
  · exact h

theorem infix_concat_ne {ps : Str} {p : Char} {s : Str} {x : Char} (h : ps ++ [p] <:+: s ++ [x]) (hx : p ≠ x) : ps ++ [p] <:+: s := by
  have h' := List.reverse_infix.2 h
  rw [List.reverse_append, List.reverse_append] at h'
  have := infix_cons_ne (p := p) (ps := ps.reverse) (x := x) (s := s.reverse) (by simpa using h') hx
  have := List.reverse_infix.2 this
  simpa using this

/-- **C117**: a function with the arguments `ps`, or a method with `self` and these, is shown with those of them that do not begin with `_`; no argument has a comma, a
star or `self` in it. -/
theorem C117_args (method : Bool) (ps : List Str) (hne : ps ≠ []) (hps : ∀ p ∈ ps, p ≠ [] ∧ ',' ∉ p ∧ '*' ∉ p) (hself : ¬ "self".toList <:+: Str.join ", ".toList ps) :
    cleanargs (some ("(".toList ++ (if method then "self, ".toList else []) ++ Str.join ", ".toList ps ++ ")".toList)) false =
      .ok ("(_".toList ++ Str.join ", ".toList (ps.filter (fun p => p.head? ≠ some '_')) ++ "_)".toList) := by
  set J := Str.join ", ".toList ps with hJ
  have hstar : '*' ∉ J := by
    have : ∀ l : List Str, (∀ p ∈ l, '*' ∉ p) → '*' ∉ Str.join ", ".toList l := by
      intro l hl
      induction l with
      | nil => simp [Str.join]
      | cons a l ih =>
        by_cases hnil : l = []
        · subst hnil; exact hl a List.mem_cons_self
        · rw [Str.join_cons _ _ _ hnil]
          simp only [List.mem_append, not_or]
          exact ⟨⟨hl a List.mem_cons_self, by decide⟩, ih (fun p hp => hl p (List.mem_cons_of_mem _ hp))⟩
    exact this ps (fun p hp => (hps p hp).2.2)
  have hJne : J ≠ [] := by
    cases ps with
    | nil => exact absurd rfl hne
    | cons a l =>
      intro e
      by_cases hnil : l = []
      · subst hnil; exact (hps a List.mem_cons_self).1 e
      · rw [hJ, Str.join_cons _ _ _ hnil] at e
        exact (hps a List.mem_cons_self).1 (List.append_eq_nil_iff.1 (List.append_eq_nil_iff.1 e).1).1
  have rep_none : ∀ (p n s : Str), ¬ p <:+: s → Str.replace p n s = s := by
    intro p n s h
    unfold Str.replace
    rw [Str.split_none _ _ h]; rfl
  have hS : ∀ s : Str, '*' ∉ s → Str.replace ", **kwargs".toList [] (Str.replace ", *args".toList [] s) = s := by
    intro s hs
    rw [rep_none ", *args".toList [] s (fun h => hs (h.mem (by decide))), rep_none ", **kwargs".toList [] s (fun h => hs (h.mem (by decide)))]
  have hplain : ∀ (p : Str), "self".toList <+: p → ¬ p <:+: "(".toList ++ J ++ ")".toList := by
    intro p hp h
    have h1 : "self".toList <:+: "(".toList ++ J ++ ")".toList := hp.isInfix.trans h
    have h2 : 's' :: "elf".toList <:+: '(' :: (J ++ ")".toList) := by simpa using h1
    have h3 := infix_cons_ne h2 (by decide)
    have h4 : "sel".toList ++ ['f'] <:+: J ++ [')'] := by simpa using h3
    exact hself (by simpa using infix_concat_ne h4 (by decide))
  have harg : argumentsOf ("(".toList ++ (if method then "self, ".toList else []) ++ J ++ ")".toList) = J := by
    unfold argumentsOf
    have hfin : ((Str.replace "self".toList [] ("(".toList ++ J ++ ")".toList)).drop 1).dropLast = J := by
      rw [rep_none _ _ _ (hplain _ (List.prefix_refl _))]
      show (J ++ [')']).dropLast = J
      rw [List.dropLast_concat]
    cases method
    · rw [if_neg (by simp), List.append_nil, hS _ (by
        simp only [List.mem_append, not_or]
        exact ⟨⟨by decide, hstar⟩, by decide⟩), rep_none _ _ _ (hplain "self, ".toList ⟨", ".toList, by decide⟩)]
      exact hfin
    · rw [if_pos rfl, hS _ (by
        simp only [List.mem_append, not_or]
        exact ⟨⟨⟨by decide, by decide⟩, hstar⟩, by decide⟩)]
      have hsp : Str.split "self, ".toList ("(".toList ++ "self, ".toList ++ J ++ ")".toList) = ["(".toList, J ++ ")".toList] := by
        have : "(".toList ++ "self, ".toList ++ J ++ ")".toList = "(".toList ++ "self, ".toList ++ (J ++ ")".toList) := by simp only [List.append_assoc]
        rw [this]
        unfold Str.split
        rw [Str.splitGo_append _ (by decide) [] "(".toList _ (by decide), Str.splitGo_none]
        · rfl
        · intro h
          refine hplain "self, ".toList ⟨", ".toList, by decide⟩ (h.trans ⟨"(".toList, [], ?_⟩)
          simp only [List.append_nil, List.append_assoc]
      have : Str.replace "self, ".toList [] ("(".toList ++ "self, ".toList ++ J ++ ")".toList) = "(".toList ++ J ++ ")".toList := by
        unfold Str.replace
        rw [hsp]
        simp only [Str.join, List.append_nil, List.append_assoc]
      rw [this]
      exact hfin
  have hsplit : Str.split ", ".toList J = ps := split_names ps hne (fun n hn => ⟨(hps n hn).1, (hps n hn).2.1⟩)
  have hA : Arguments (some ("(".toList ++ (if method then "self, ".toList else []) ++ J ++ ")".toList)) := by
    refine ⟨_, rfl, .inr ?_⟩
    rw [harg, hsplit]
    exact fun h => (hps [] h).1 rfl
  obtain ⟨a, ha⟩ := (cleanargs_ok _ false).2 hA
  obtain ⟨s, hs, hav⟩ := cleanargs_eq ha
  obtain rfl := Option.some.inj hs
  rw [ha, hav, harg, if_neg hJne]
  simp only [Option.elim, Bool.false_eq_true, if_false]
  unfold shownArgs
  rw [hsplit, show "(_".toList = "(".toList ++ "_".toList by decide, show "_)".toList = "_".toList ++ ")".toList by decide]
  simp only [List.append_assoc]

/-- **C117**, not kept: an argument with `self` in its name loses it, and is joined to the next. -/
theorem C117_self_wrong : (cleanargs (some "(x, itself, y)".toList) false).toOption = some "(_x, ity_)".toList := by decide +kernel

/-! ## Examples -/

def blank (c : Char) : Bool := c = ' ' || c = '\n'
def fn (name : String) (n : Nat) (spec doc : String) : Fn := ⟨name.toList, some ("a.py".toList, n), true, some spec.toList, some doc.toList⟩
def cls (name : String) (n : Nat) : Cls :=
  ⟨name.toList, some ("a.py".toList, n), false, ["object".toList], some "(self, x)".toList, none, [⟨fn "run" (n + 2) "(self, x, _y)" "Runs", false, false⟩], []⟩
def world : World where
  doc := some "The package".toList
  members := [.fn (fn "read" 9 "(path)" "# Reads\n\nSee [write](#m.write)"), .fn (fn "write" 10 "(path, _mode)" "Writes"), .fn (fn "_hidden" 3 "()" ">"), .cls (cls "A" 20), .cls (cls "B" 40)]
  modules := [⟨"plot".toList, some "Plots".toList, [fn "draw" 1 "()" "Draws"]⟩]
  blurbs := []
  filePrefix := "2026-".toList
  yaml := []
  ws := blank

theorem world_named : Named world := by
  intro b c hc n hn
  have : c.bases = ["object".toList] := by
    obtain ⟨m, hm, h⟩ := List.mem_filterMap.1 hc
    have hm : m ∈ world.members := hm
    simp only [world, List.mem_cons, List.not_mem_nil, or_false] at hm
    rcases hm with rfl | rfl | rfl | rfl | rfl
    · cases h
    · cases h
    · cases h
    · unfold publicCls at h; dsimp only at h; split at h
      · cases h
      · cases h; rfl
    · unfold publicCls at h; dsimp only at h; split at h
      · cases h
      · cases h; rfl
  rw [this] at hn
  rw [List.mem_singleton.1 hn]
  exact ⟨by decide, by decide⟩

theorem world_files : (files world).toOption.isSome = true := by decide +kernel
theorem world_single : (single world).toOption.isSome = true := by decide +kernel

theorem ok_of_some {α : Type} {x : Except Err α} (h : x.toOption.isSome = true) : ∃ r, x = .ok r := by
  cases x with
  | ok r => exact ⟨r, rfl⟩
  | error e => cases h

/-- The pages of the example are written, and `write` of line 10 comes before `read` of line 9. -/
example : (∃ fs, files world = .ok fs) ∧ ∃ s, single world = .ok s := ⟨ok_of_some world_files, ok_of_some world_single⟩
example : (funcs world).map Fn.name = ["write".toList, "read".toList] := by decide +kernel
example : ((files world).toOption.map (fun fs => fs.map Prod.fst)) =
    some ["2026-overview.md".toList, "2026-metaknowledge.md".toList, "2026-A.md".toList, "2026-B.md".toList, "2026-plot.md".toList] := by decide +kernel
/-- Both classes have a method `run`. -/
example : ∃ s, single world = .ok s ∧ ∃ x y z, s = x ++ anchor "run".toList ++ y ++ anchor "run".toList ++ z := by
  obtain ⟨s, hs⟩ := ok_of_some world_single
  refine ⟨s, hs, ?_⟩
  refine C116_single_anchor_wrong world world_named s hs (cls "A" 20) (cls "B" 40) (by decide +kernel) (by decide +kernel) (by decide +kernel)
    ⟨fn "run" 22 "(self, x, _y)" "Runs", false, false⟩ ⟨fn "run" 42 "(self, x, _y)" "Runs", false, false⟩ ⟨by decide +kernel, .inl ⟨?_, rfl, ?_, rfl⟩⟩
    ⟨by decide +kernel, .inl ⟨?_, rfl, ?_, rfl⟩⟩ rfl
  · unfold Public; decide +kernel
  · decide +kernel
  · unfold Public; decide +kernel
  · decide +kernel
example : (cleanedDoc world (some "# Reads\n> quoted\nSee [write](#m.write), too".toList) 5 false).toOption =
    some "###### Reads\n quoted\nSee [write]({{ site.baseurl }}{{ page.url }}#write), too\n\n\n".toList := by decide +kernel
example : LinkOk blank ⟨"write".toList, "m".toList, "write".toList⟩ ∧ Blanks blank ∧ Free blank ", too".toList :=
  ⟨⟨⟨by decide, by decide⟩, ⟨by decide, by decide, by decide⟩, ⟨by decide, by decide, by decide, by decide⟩⟩, by unfold Blanks; decide, by unfold Free; decide⟩
/-- Two links joined by `/`. -/
example : (cleanedDoc world (some "[a](#m.a)/[b](#m.b)".toList) 5 true).toOption = some "[a](#m.a)/[b](#b)\n\n\n".toList := by decide +kernel
/-- The example with an empty quoted line in the documentation of a public function. -/
example : (files { world with members := [.fn (fn "read" 9 "(path)" "Reads\n>")] }).toOption = none := by decide +kernel
example : (cleanargs (some "(self, x, _y)".toList) false).toOption = some "(_x_)".toList := by decide +kernel

end Verif.Props.DocsGen
