import Verif.Props.DocsFront

/-! # C116: the lists at the head of the single file of the documentation -/
set_option autoImplicit false
namespace Verif.Props.DocsSingle
open Verif.Py Verif.Model.DocsGen Verif.Spec.DocsGen Verif.Lemmas.DocsGen Verif.Props.DocsGen Verif.Props.DocsFront

theorem bigRow_eq (f : Fn) (owner : Option Str) (r : Str) (h : bigRow (f, owner) = .ok r) : r = listRow owner f := by
  unfold bigRow at h
  obtain ⟨a, ha, h⟩ := bind_ok h
  obtain ⟨s, hs, ha⟩ := cleanargs_eq ha
  rw [← Except.ok.inj h, ha]
  dsimp only at hs
  unfold listRow
  rw [hs]
  cases owner <;> by_cases e : argumentsOf s = [] <;> simp [t, e]

theorem bigRows_eq (l : List (Fn × Option Str)) (rows : List Str) (h : l.mapM bigRow = .ok rows) : rows = l.map (fun e => listRow e.2 e.1) := by
  rw [mapM_forall₂] at h
  induction h with
  | nil => rfl
  | cons h _ ih => rw [List.map_cons, ← ih, bigRow_eq _ _ _ h]

theorem table_eq (headline : Str) (rows : List Str) : makeTable headline rows = headedList headline rows := rfl

/-- **C116**: the single file begins with the list of the modules. It has a list of all public functions and of the methods of all public classes that are not those of the
first base class, each behind its class. For every module it has a list of its public functions, each behind the module, and their entries as on the page of the module. -/
theorem C116_single_lists (W : World) (s : Str) (h : single W = .ok s) :
    (∃ blurb : Module → Str, (∀ m ∈ W.modules, Blurb W m.name (blurb m)) ∧
      W.yaml ++ headedList "<a name=\"objlist\"></a>The modules of <i>metaknowledge</i> are:".toList (W.modules.map (fun m => moduleLink m.name (blurb m))) <+: s) ∧
    (∃ (gs : List Fn) (cs : List Cls) (ms : Cls → List Meth), gs.Perm (W.members.filterMap publicFn) ∧ cs.Perm (W.members.filterMap (publicCls false)) ∧
      (∀ c, (ms c).Perm (c.members.filter (fun m => decide (m.fn.name.head? ≠ some '_' ∧ m.inFirst = false ∧ m.fn.isFunction = true)))) ∧
      headedList "<a name=\"fulllist\"></a>All the functions and methods of <i>metaknowledge</i> and its objects are as follows:".toList
        (gs.map (listRow none) ++ cs.flatMap (fun c => (ms c).map (fun m => listRow (some c.name) m.fn))) <:+: s) ∧
    ∀ m ∈ W.modules, ∃ gs es, gs.Perm (m.functions.filter (fun f => decide (f.name.head? ≠ some '_'))) ∧
      headedList ("All the functions of the <a href=\"#".toList ++ m.name ++ "\"><u>".toList ++ m.name ++ "</u></a> module are as follows:".toList)
        (gs.map (listRow (some m.name))) <:+: s ∧
      List.Forall₂ (About (subLinks W.ws false 99 0)) gs es ∧ Shows (m.name ++ ".".toList) es s := by
  unfold single at h
  obtain ⟨cs, -, h⟩ := bind_ok h
  obtain ⟨big, hbig, h⟩ := bind_ok h
  obtain ⟨ms, hms, h⟩ := bind_ok h
  obtain ⟨o, -, h⟩ := bind_ok h
  obtain ⟨f, -, h⟩ := bind_ok h
  obtain ⟨cps, -, h⟩ := bind_ok h
  obtain ⟨mps, hmps, h⟩ := bind_ok h
  have h := (Except.ok.inj h).symm
  have hbig := bigRows_eq _ _ hbig
  refine ⟨⟨fun m => makeBlurb W m.name, fun m _ => blurb_eq W m.name, ?_⟩, ⟨funcs W, classes W,
    fun c => (sortedByLine (fun m => m.fn.line) c.members).filter (fun m => !(decide (m.fn.name.head? = some '_') || m.inFirst) && m.fn.isFunction), funcs_perm W, ?_, fun c => ?_, ?_⟩, fun m hm => ?_⟩
  · rw [h]
    simp only [List.append_assoc]
    rw [← List.append_assoc W.yaml]
    exact List.prefix_append _ _
  · rw [classes_eq]; exact (members_perm W).filterMap _
  · refine ((sorted_perm (fun m : Meth => m.fn.line) c.members).filter _).trans (List.Perm.of_eq (List.filter_congr (fun m _ => ?_)))
    cases m.inFirst <;> cases m.fn.isFunction <;> by_cases e : m.fn.name.head? = some '_' <;> simp [e]
  · have hrows : (funcs W).map (listRow none) ++ (classes W).flatMap (fun c => ((sortedByLine (fun m => m.fn.line) c.members).filter
        (fun m => !(decide (m.fn.name.head? = some '_') || m.inFirst) && m.fn.isFunction)).map (fun m => listRow (some c.name) m.fn)) = big := by
      rw [hbig, List.map_append, List.map_map, List.map_flatMap]
      congr 1
      apply List.flatMap_congr
      intro c _
      unfold bigMethods
      rw [List.map_map]
      rfl
    rw [hrows, h]
    refine ⟨W.yaml ++ makeTable (t "<a name=\"objlist\"></a>The modules of <i>metaknowledge</i> are:") (W.modules.map (fun m => moduleRow W m.name)) ++
      makeTable (t "<a name=\"objlist\"></a>The classes of <i>metaknowledge</i> are:") cs, ms.flatten ++ o ++ f ++ cps.flatten ++ mps.flatten ++ footer, ?_⟩
    simp only [List.append_assoc]
    rfl
  · rw [mapM_forall₂] at hms hmps
    obtain ⟨x, hx, hmx⟩ := forall₂_find _ _ _ hms m hm
    obtain ⟨p, hp, hmp⟩ := forall₂_find _ _ _ hmps m hm
    obtain ⟨rows, hr, hmx⟩ := bind_ok hmx
    have hr := bigRows_eq _ _ hr
    have hok := (modulePage_ok W true m).1 ⟨p, hmp⟩
    unfold modulePage at hmp
    obtain ⟨dt, _, hmp⟩ := bind_ok hmp
    obtain ⟨r, hrt, hmp⟩ := bind_ok hmp
    have hmp := (Except.ok.inj hmp).symm
    refine ⟨moduleFuncs m, (moduleFuncs m).map (entryOf W), (sorted_perm Fn.line m.functions).filter _, ?_,
      about_all W _ (fun f hf => hok.2 f ((mem_moduleFuncs m f).1 hf).1 ((mem_moduleFuncs m f).1 hf).2), ?_⟩
    · have hrow : (moduleFuncs m).map (listRow (some m.name)) = rows := by rw [hr, List.map_map]; rfl
      rw [hrow]
      obtain ⟨a, b, e⟩ := List.append_of_mem hx
      rw [h, e]
      rw [← Except.ok.inj hmx]
      simp only [List.flatten_append, List.flatten_cons, List.append_assoc]
      refine ⟨W.yaml ++ (makeTable (t "<a name=\"objlist\"></a>The modules of <i>metaknowledge</i> are:") (W.modules.map (fun m => moduleRow W m.name)) ++
        (makeTable (t "<a name=\"objlist\"></a>The classes of <i>metaknowledge</i> are:") cs ++
        (makeTable (t "<a name=\"fulllist\"></a>All the functions and methods of <i>metaknowledge</i> and its objects are as follows:") big ++ a.flatten))), b.flatten ++ (o ++ (f ++ (cps.flatten ++ (mps.flatten ++ footer)))), ?_⟩
      simp only [List.append_assoc]
      rfl
    · obtain ⟨a, b, e⟩ := List.append_of_mem hp
      have := shows_append (makeHeader m.name (makeBlurb W m.name) (t "module") 3 true ++
        (t "\n# [" ++ m.name ++ t "]({{ site.baseurl }}{{ page.url }}#" ++ m.name ++ t ")\n\n") ++ (dt ++ t "\n\n")) [] (shows_table W _ _ _ _ hrt)
      rw [List.append_nil, ← hmp] at this
      rw [h, e]
      have := shows_append (W.yaml ++ makeTable (t "<a name=\"objlist\"></a>The modules of <i>metaknowledge</i> are:") (W.modules.map (fun m => moduleRow W m.name)) ++
        makeTable (t "<a name=\"objlist\"></a>The classes of <i>metaknowledge</i> are:") cs ++
        makeTable (t "<a name=\"fulllist\"></a>All the functions and methods of <i>metaknowledge</i> and its objects are as follows:") big ++ ms.flatten ++ o ++ f ++ cps.flatten ++
        a.flatten) (b.flatten ++ footer) this
      simp only [List.flatten_append, List.flatten_cons, List.append_assoc] at this ⊢
      exact this

/-- The single file of the example has the one function of its module in the list of the module. -/
example : ∃ s, single world = .ok s ∧
    ("<h3>All the functions of the <a href=\"#plot\"><u>plot</u></a> module are as follows:</h3>\n\n<ol class=\"post-list\">\n".toList ++
      "<li><article><a href=\"#draw\"><small>plot</small>.<b>draw</b>()</a></article></li>\n</ol>\n".toList) <:+: s := by
  obtain ⟨s, h⟩ := ok_of_some (x := single world) (by decide +kernel)
  refine ⟨s, h, ?_⟩
  obtain ⟨_, _, h3⟩ := C116_single_lists world s h
  obtain ⟨gs, es, g1, g2, _⟩ := h3 ⟨"plot".toList, some "Plots".toList, [fn "draw" 1 "()" "Draws"]⟩ List.mem_cons_self
  have : gs = [fn "draw" 1 "()" "Draws"] := List.perm_singleton.1 (g1.trans (List.Perm.of_eq (by rw [List.filter_cons_of_pos (by decide +kernel), List.filter_nil])))
  subst this
  refine List.IsInfix.trans ⟨[], [], ?_⟩ g2
  decide +kernel

end Verif.Props.DocsSingle
