import Verif.Props.DocsGen

/-! # C116: what the pages of the documentation begin with -/
set_option autoImplicit false
namespace Verif.Props.DocsFront
open Verif.Py Verif.Model.DocsGen Verif.Spec.DocsGen Verif.Lemmas.DocsGen Verif.Props.DocsGen

theorem header_front (title excerpt tag : Str) (weight : Nat) (rest : Str) : front title excerpt tag weight <+: makeHeader title excerpt tag weight false ++ rest := by
  refine ⟨t "<a name=\"" ++ title ++ t "\"></a>\n" ++ rest, ?_⟩
  unfold makeHeader front
  rw [if_neg (by decide), show t "\n---\n<a name=\"" = t "\n---\n" ++ t "<a name=\"" by decide +kernel]
  unfold t
  simp only [List.append_assoc]

theorem blurb_eq (W : World) (name : Str) : Blurb W name (makeBlurb W name) := by
  unfold Blurb makeBlurb
  cases W.blurbs.get? name with
  | some b => exact .inl rfl
  | none => exact .inr ⟨rfl, rfl⟩

/-- **C116**: every page begins with its title, what is said about it in one line, its kind and its place: the tour first, then the functions, the classes and the modules. -/
theorem C116_front (W : World) (fs : List (Str × Str)) (h : files W = .ok fs) :
    (∃ text, (W.filePrefix ++ "overview.md".toList, text) ∈ fs ∧
      front "Overview".toList "The <i>metaknowledge</i> Package, a quick tour".toList "main".toList 0 <+: text) ∧
    (∃ text, (W.filePrefix ++ "metaknowledge.md".toList, text) ∈ fs ∧
      front "Base Functions".toList "The <i>metaknowledge</i> functions, for filtering reading and writing graphs".toList "functions".toList 1 <+: text) ∧
    (∀ c ∈ W.members.filterMap (publicCls false), ∃ text s, (W.filePrefix ++ c.name ++ ".md".toList, text) ∈ fs ∧ Blurb W c.name s ∧ front c.name s "class".toList 2 <+: text) ∧
    ∀ m ∈ W.modules, ∃ text s, (W.filePrefix ++ m.name ++ ".md".toList, text) ∈ fs ∧ Blurb W m.name s ∧ front m.name s "module".toList 3 <+: text := by
  obtain ⟨o, f, cs, ms, ho, hf, hcs, hms, rfl⟩ := files_parts h
  refine ⟨⟨o ++ footer, List.mem_cons_self, ?_⟩, ⟨f ++ footer, List.mem_cons_of_mem _ List.mem_cons_self, ?_⟩, fun c hc => ?_, fun m hm => ?_⟩
  · unfold overviewPage at ho
    obtain ⟨d, _, ho⟩ := bind_ok ho
    rw [← Except.ok.inj ho, List.append_assoc]
    exact header_front _ _ _ _ _
  · unfold functionsPage at hf
    obtain ⟨rows, _, hf⟩ := bind_ok hf
    obtain ⟨excs, _, hf⟩ := bind_ok hf
    obtain ⟨es, _, hf⟩ := bind_ok hf
    rw [← Except.ok.inj hf]
    simp only [List.append_assoc]
    exact header_front _ _ _ _ _
  · obtain ⟨x, hx, p, hp, rfl⟩ := forall₂_find _ _ _ hcs c ((mem_classes W c).2 hc)
    refine ⟨p ++ footer, _, List.mem_cons_of_mem _ (List.mem_cons_of_mem _ (List.mem_append_left _ hx)), blurb_eq W c.name, ?_⟩
    unfold classPage at hp
    obtain ⟨q, _, hp⟩ := bind_ok hp
    rw [← Except.ok.inj hp, List.append_assoc]
    exact header_front _ _ _ _ _
  · obtain ⟨x, hx, p, hp, rfl⟩ := forall₂_find _ _ _ hms m hm
    refine ⟨p ++ footer, _, List.mem_cons_of_mem _ (List.mem_cons_of_mem _ (List.mem_append_right _ hx)), blurb_eq W m.name, ?_⟩
    unfold modulePage at hp
    obtain ⟨d, _, hp⟩ := bind_ok hp
    obtain ⟨r, _, hp⟩ := bind_ok hp
    rw [← Except.ok.inj hp]
    simp only [List.append_assoc]
    exact header_front _ _ _ _ _

theorem title_heading (single : Bool) (name args rest : Str) : heading (if single then [] else thisPage) name <+: makeTitle [] name args single ++ rest := by
  refine ⟨args ++ t ":\n\n" ++ rest, ?_⟩
  unfold heading makeTitle anchor thisPage
  cases single
  · rw [if_neg (by decide), if_neg (by decide),
      show t "</ins>]({{ site.baseurl }}{{ page.url }}#" = "</ins>](".toList ++ "{{ site.baseurl }}{{ page.url }}".toList ++ "#".toList by decide +kernel,
      show t "\"></a><small>" = "\"></a>".toList ++ "<small>".toList by decide +kernel,
      show ("<small></small>**[<ins>".toList : Str) = "<small>".toList ++ t "</small>**[<ins>" by decide +kernel]
    unfold t
    simp only [List.append_assoc, List.nil_append]
  · rw [if_pos rfl, if_pos rfl,
      show t "</ins>](#" = "</ins>](".toList ++ "#".toList by decide +kernel,
      show t "\"></a><small>" = "\"></a>".toList ++ "<small>".toList by decide +kernel,
      show ("<small></small>**[<ins>".toList : Str) = "<small>".toList ++ t "</small>**[<ins>" by decide +kernel]
    unfold t
    simp only [List.append_assoc, List.nil_append]

theorem class_heading (W : World) (single : Bool) (c : Cls) (p : Str) (hp : classPage W single c = .ok p) :
    heading (if single then [] else thisPage) c.name <:+: p ∧ heading (if single then [] else thisPage) (c.name ++ ".__init__".toList) <:+: p := by
  unfold classPage at hp
  obtain ⟨q, hq, hp⟩ := bind_ok hp
  have hp := (Except.ok.inj hp).symm
  have hqp : q <:+: p := by rw [hp]; exact (List.suffix_append _ _).isInfix
  unfold processClass at hq
  obtain ⟨w, hw, hq⟩ := bind_ok hq
  have hwq : w <:+: q := by
    dsimp only at hq
    split at hq
    all_goals
      obtain ⟨r, _, hq⟩ := bind_ok hq
      rw [← Except.ok.inj hq, List.append_assoc]
      exact (List.prefix_append _ _).isInfix
  unfold writeClass at hw
  obtain ⟨a, -, hw⟩ := bind_ok hw
  obtain ⟨i, -, hw⟩ := bind_ok hw
  obtain ⟨d, -, hw⟩ := bind_ok hw
  have hw := (Except.ok.inj hw).symm
  rw [List.append_assoc] at hw
  refine ⟨List.IsInfix.trans ?_ (hwq.trans hqp), List.IsInfix.trans ?_ (hwq.trans hqp)⟩
  · rw [hw]
    exact (title_heading single c.name a _).isInfix
  · rw [hw]
    exact (title_heading single _ i d).isInfix.trans (List.suffix_append _ _).isInfix

/-- **C116**: a class and how it is made have a heading that is a link to itself: on the page of the class, and in the single file within that file. A module has one on
its page. -/
theorem C116_headings (W : World) :
    (∀ fs, files W = .ok fs →
      (∀ c ∈ W.members.filterMap (publicCls false), ∃ text, (W.filePrefix ++ c.name ++ ".md".toList, text) ∈ fs ∧
        heading thisPage c.name <:+: text ∧ heading thisPage (c.name ++ ".__init__".toList) <:+: text) ∧
      ∀ m ∈ W.modules, ∃ text, (W.filePrefix ++ m.name ++ ".md".toList, text) ∈ fs ∧
        ("\n# [".toList ++ m.name ++ "](".toList ++ thisPage ++ "#".toList ++ m.name ++ ")\n\n".toList) <:+: text ∧
        ("<h3>".toList ++ anchorText m.name <:+: text)) ∧
    ∀ s, single W = .ok s → ∀ c ∈ W.members.filterMap (publicCls false), heading [] c.name <:+: s ∧ heading [] (c.name ++ ".__init__".toList) <:+: s := by
  refine ⟨fun fs h => ?_, fun s h c hc => ?_⟩
  · obtain ⟨o, f, cs, ms, ho, hf, hcs, hms, rfl⟩ := files_parts h
    refine ⟨fun c hc => ?_, fun m hm => ?_⟩
    · obtain ⟨x, hx, p, hp, rfl⟩ := forall₂_find _ _ _ hcs c ((mem_classes W c).2 hc)
      refine ⟨p ++ footer, List.mem_cons_of_mem _ (List.mem_cons_of_mem _ (List.mem_append_left _ hx)), ?_⟩
      have := class_heading W false c p hp
      exact ⟨this.1.trans (List.prefix_append _ _).isInfix, this.2.trans (List.prefix_append _ _).isInfix⟩
    · obtain ⟨x, hx, p, hp, rfl⟩ := forall₂_find _ _ _ hms m hm
      refine ⟨p ++ footer, List.mem_cons_of_mem _ (List.mem_cons_of_mem _ (List.mem_append_right _ hx)), ?_⟩
      refine and_imp.2 (fun h1 h2 => And.intro (List.IsInfix.trans (l₂ := p) h1 (List.prefix_append _ _).isInfix) (List.IsInfix.trans (l₂ := p) h2 (List.prefix_append _ _).isInfix)) ?_
      unfold modulePage at hp
      obtain ⟨d, _, hp⟩ := bind_ok hp
      obtain ⟨r, hr, hp⟩ := bind_ok hp
      rw [← Except.ok.inj hp]
      constructor
      · refine ⟨makeHeader m.name (makeBlurb W m.name) (t "module") 3 false, (d ++ t "\n\n") ++ r, ?_⟩
        unfold thisPage
        rw [show t "]({{ site.baseurl }}{{ page.url }}#" = "](".toList ++ "{{ site.baseurl }}{{ page.url }}".toList ++ "#".toList by decide +kernel]
        unfold t
        simp only [List.append_assoc]
      · unfold tableAndEntries at hr
        obtain ⟨rows, _, hr⟩ := bind_ok hr
        obtain ⟨es, _, hr⟩ := bind_ok hr
        rw [← Except.ok.inj hr]
        refine List.IsInfix.trans ?_ (List.suffix_append _ _).isInfix
        refine List.IsInfix.trans ?_ (List.prefix_append _ _).isInfix
        unfold makeTable anchorText
        refine ⟨[], t "</h3>\n\n<ol class=\"post-list\">\n" ++ Str.join (t "\n") rows ++ t "\n</ol>\n", ?_⟩
        unfold t
        simp only [List.append_assoc, List.nil_append]
  · obtain ⟨f, cps, mps, pre, mid, hf, hcps, -, rfl⟩ := single_parts h
    rw [mapM_forall₂] at hcps
    obtain ⟨p, hp, hcp⟩ := forall₂_find _ _ _ hcps c ((mem_classes W c).2 hc)
    have := class_heading W true c p hcp
    obtain ⟨x, y, e⟩ := List.append_of_mem hp
    have e' : pre ++ f ++ cps.flatten ++ (mps.flatten ++ mid) = (pre ++ f ++ x.flatten) ++ p ++ (y.flatten ++ (mps.flatten ++ mid)) := by
      rw [e]; simp only [List.flatten_append, List.flatten_cons, List.append_assoc]
    rw [e']
    exact ⟨this.1.trans ⟨_, _, rfl⟩, this.2.trans ⟨_, _, rfl⟩⟩

/-- A class of the example has its heading on its page and in the single file. -/
example : (∃ fs text, files world = .ok fs ∧ ("2026-A.md".toList, text) ∈ fs ∧ heading thisPage "A.__init__".toList <:+: text) ∧
    ∃ s, single world = .ok s ∧ "<a name=\"A\"></a><small></small>**[<ins>A</ins>](#A)**".toList <:+: s := by
  obtain ⟨fs, h⟩ := ok_of_some (x := files world) (by decide +kernel)
  obtain ⟨s, g⟩ := ok_of_some (x := single world) (by decide +kernel)
  obtain ⟨text, h1, _, h2⟩ := ((C116_headings world).1 fs h).1 (cls "A" 20) (by decide +kernel)
  refine ⟨⟨fs, text, h, h1, h2⟩, s, g, ?_⟩
  have := ((C116_headings world).2 s g (cls "A" 20) (by decide +kernel)).1
  rwa [show heading [] (cls "A" 20).name = "<a name=\"A\"></a><small></small>**[<ins>A</ins>](#A)**".toList by decide +kernel] at this

def named : World := { world with blurbs := [("A".toList, "A class".toList)] }

/-- A class with a line of its own, and one without. -/
example : ∃ fs, files named = .ok fs ∧ (∃ text, ("2026-A.md".toList, text) ∈ fs ∧ front "A".toList "A class".toList "class".toList 2 <+: text) ∧
    ∃ text, ("2026-B.md".toList, text) ∈ fs ∧ front "B".toList "BLURB NEEDED FOR B".toList "class".toList 2 <+: text := by
  obtain ⟨fs, h⟩ := ok_of_some (x := files named) (by decide +kernel)
  obtain ⟨_, _, h3, _⟩ := C116_front named fs h
  obtain ⟨x, s, x1, x2, x3⟩ := h3 (cls "A" 20) (by decide +kernel)
  obtain ⟨y, r, y1, y2, y3⟩ := h3 (cls "B" 40) (by decide +kernel)
  rcases x2 with x2 | ⟨x2, _⟩
  · rcases y2 with y2 | ⟨_, y2⟩
    · exact absurd (y2.symm.trans (by decide +kernel : named.blurbs.get? (cls "B" 40).name = none)) (by simp)
    · subst y2
      have : s = "A class".toList := Option.some.inj (x2.symm.trans (by decide +kernel))
      subst this
      exact ⟨fs, h, ⟨x, x1, x3⟩, y, y1, y3⟩
  · exact absurd (x2.symm.trans (by decide +kernel : named.blurbs.get? (cls "A" 20).name = some "A class".toList)) (by simp)

end Verif.Props.DocsFront
