import Verif.Model.Nsf
import Verif.Props.Grants

/-! # C67: the fields of an NSF award -/
set_option autoImplicit false
set_option linter.unusedSimpArgs false
namespace Verif.Props.Nsf
open Verif.Py Verif.Model.Grants Verif.Model.Nsf

/-! ## Helpers -/

/-- What the elements of one tag make of its value. -/
def valStep (v : Option Val) (e : Xml) : Except NsfErr (Option Val) :=
  if e.children = [] then .ok (some (e.text.elim .none .str))
  else match v with
    | none => .ok (some (.list [Str.join "; ".toList (texts e)]))
    | some (.list l) => .ok (some (.list (l ++ [Str.join "; ".toList (texts e)])))
    | some _ => .error .attributeError

/-- Tags of elements that the last loop handles. -/
def Plain (t : Str) : Prop := t ≠ "Organization".toList ∧ t ≠ "Investigator".toList

instance (t : Str) : Decidable (Plain t) := inferInstanceAs (Decidable (_ ∧ _))

theorem appendTo_get? (d : Fields) (key s : Str) :
    (∀ d', appendTo d key s = .ok d' → ∀ t, Dict.get? d' t = if key = t then some (.list ((match Dict.get? d key with | some (.list l) => l | _ => []) ++ [s]))
      else Dict.get? d t) ∧
    (appendTo d key s = .error .attributeError ↔ ∃ v, Dict.get? d key = some v ∧ ∀ l, v ≠ .list l) := by
  unfold appendTo
  cases h : Dict.get? d key with
  | none => simp [Dict.get?_set]
  | some v => cases v <;> simp [Dict.get?_set]

theorem elementStep_spec (d : Fields) (e : Xml) (he : Plain e.tag) :
    (∀ d', elementStep d e = .ok d' → valStep (Dict.get? d e.tag) e = .ok (Dict.get? d' e.tag) ∧ ∀ t, t ≠ e.tag → Dict.get? d' t = Dict.get? d t) ∧
    (elementStep d e = .error .attributeError ↔ valStep (Dict.get? d e.tag) e = .error .attributeError) := by
  unfold elementStep valStep
  rw [if_neg (not_or.2 he)]
  by_cases hc : e.children = []
  · simp only [hc, if_true]
    constructor
    · intro d' h
      cases h
      exact ⟨by rw [Dict.get?_set_self], fun t ht => Dict.get?_set_ne _ _ (Ne.symm ht)⟩
    · simp
  · simp only [hc, if_false]
    unfold appendTo
    cases h : Dict.get? d e.tag with
    | none =>
      constructor
      · intro d' h
        cases h
        exact ⟨by rw [Dict.get?_set_self], fun t ht => Dict.get?_set_ne _ _ (Ne.symm ht)⟩
      · simp
    | some v =>
      cases v with
      | list l =>
        constructor
        · intro d' h
          cases h
          exact ⟨by rw [Dict.get?_set_self], fun t ht => Dict.get?_set_ne _ _ (Ne.symm ht)⟩
        · simp
      | str s => simp
      | none => simp

theorem elementStep_skip (d : Fields) (e : Xml) (he : ¬ Plain e.tag) : elementStep d e = .ok d := by
  unfold elementStep
  rw [if_pos]
  unfold Plain at he
  by_cases h : e.tag = "Organization".toList
  · exact Or.inl h
  · right; by_contra h2; exact he ⟨h, h2⟩

theorem elements_spec (top : List Xml) : ∀ d : Fields,
    (∀ d', top.foldlM elementStep d = .ok d' → ∀ t, if Plain t then (top.filter (fun e => e.tag = t)).foldlM valStep (Dict.get? d t) = .ok (Dict.get? d' t)
      else Dict.get? d' t = Dict.get? d t) ∧
    (top.foldlM elementStep d = .error .attributeError ↔
      ∃ t, Plain t ∧ (top.filter (fun e => e.tag = t)).foldlM valStep (Dict.get? d t) = .error .attributeError) := by
  induction top with
  | nil =>
    intro d
    refine ⟨fun d' h t => ?_, ?_⟩
    · have : d = d' := by simpa [pure, Except.pure] using h
      subst this
      by_cases hp : Plain t
      · rw [if_pos hp]; rfl
      · rw [if_neg hp]
    · simp [pure, Except.pure]
  | cons e top ih =>
    intro d
    by_cases he : Plain e.tag
    · obtain ⟨s1, s2⟩ := elementStep_spec d e he
      cases h1 : elementStep d e with
      | error x =>
        cases x
        refine ⟨fun d' h => ?_, ?_⟩
        · rw [List.foldlM_cons, h1] at h; cases h
        · rw [List.foldlM_cons, h1]
          refine iff_of_true rfl ⟨e.tag, he, ?_⟩
          rw [List.filter_cons_of_pos (by simp), List.foldlM_cons, s2.1 h1]; rfl
      | ok d1 =>
        obtain ⟨v1, v2⟩ := s1 d1 h1
        have hstep : ∀ t, ((e :: top).filter (fun e => e.tag = t)).foldlM valStep (Dict.get? d t) =
            (top.filter (fun e => e.tag = t)).foldlM valStep (Dict.get? d1 t) := by
          intro t
          by_cases ht : e.tag = t
          · rw [List.filter_cons_of_pos (by simpa using ht), List.foldlM_cons, ← ht, v1]; rfl
          · rw [List.filter_cons_of_neg (by simpa using ht), v2 t (Ne.symm ht)]
        have hf : (e :: top).foldlM elementStep d = top.foldlM elementStep d1 := by rw [List.foldlM_cons, h1]; rfl
        rw [hf]
        refine ⟨fun d' h t => ?_, ?_⟩
        · have := (ih d1).1 d' h t
          by_cases hp : Plain t
          · rw [if_pos hp] at this ⊢; rw [hstep]; exact this
          · rw [if_neg hp] at this ⊢; rw [this, v2 t (by rintro rfl; exact hp he)]
        · rw [(ih d1).2]
          exact exists_congr (fun t => by rw [hstep])
    · have hf : (e :: top).foldlM elementStep d = top.foldlM elementStep d := by rw [List.foldlM_cons, elementStep_skip d e he]; rfl
      have hfil : ∀ t, Plain t → (e :: top).filter (fun e => e.tag = t) = top.filter (fun e => e.tag = t) := by
        intro t ht
        rw [List.filter_cons_of_neg]
        simp only [decide_eq_true_eq]
        rintro rfl; exact he ht
      rw [hf]
      refine ⟨fun d' h t => ?_, ?_⟩
      · have := (ih d).1 d' h t
        by_cases hp : Plain t
        · rw [if_pos hp] at this ⊢; rw [hfil t hp]; exact this
        · rw [if_neg hp] at this ⊢; exact this
      · rw [(ih d).2]
        exact exists_congr (fun t => and_congr_right (fun hp => by rw [hfil t hp]))

/-- The value of a list of elements, all with children. -/
theorem valFold_composite (els : List Xml) : ∀ l : List Str, (∀ e ∈ els, e.children ≠ []) →
    els.foldlM valStep (some (.list l)) = .ok (some (.list (l ++ els.map (fun e => Str.join "; ".toList (texts e))))) := by
  induction els with
  | nil => intro l _; simp [pure, Except.pure]
  | cons e els ih =>
    intro l h
    rw [List.foldlM_cons]
    have : valStep (some (.list l)) e = .ok (some (.list (l ++ [Str.join "; ".toList (texts e)]))) := by
      unfold valStep; rw [if_neg (h e (by simp))]
    rw [this]
    have := ih (l ++ [Str.join "; ".toList (texts e)]) (fun x hx => h x (by simp [hx]))
    simp only [List.append_assoc, List.cons_append, List.nil_append] at this
    exact this

theorem valFold_error (els : List Xml) : ∀ v : Option Val,
    els.foldlM valStep v = .error .attributeError ↔
      (∃ p q r x y, els = p ++ x :: q ++ y :: r ∧ x.children = [] ∧ y.children ≠ []) ∨
      ((∃ w, v = some w ∧ ∀ l, w ≠ .list l) ∧ ∃ y ∈ els, y.children ≠ []) := by
  induction els with
  | nil => intro v; simp [pure, Except.pure]
  | cons e els ih =>
    intro v
    rw [List.foldlM_cons]
    have hsplit : (∃ p q r x y, e :: els = p ++ x :: q ++ y :: r ∧ x.children = [] ∧ y.children ≠ []) ↔
        (∃ p q r x y, els = p ++ x :: q ++ y :: r ∧ x.children = [] ∧ y.children ≠ []) ∨ (e.children = [] ∧ ∃ y ∈ els, y.children ≠ []) := by
      constructor
      · rintro ⟨p, q, r, x, y, h, hx, hy⟩
        cases p with
        | nil =>
          simp only [List.nil_append, List.cons_append, List.cons.injEq] at h
          obtain ⟨rfl, rfl⟩ := h
          exact Or.inr ⟨hx, y, by simp, hy⟩
        | cons z p =>
          simp only [List.cons_append, List.cons.injEq] at h
          exact Or.inl ⟨p, q, r, x, y, by simpa using h.2, hx, hy⟩
      · rintro (⟨p, q, r, x, y, rfl, hx, hy⟩ | ⟨hx, y, hm, hy⟩)
        · exact ⟨e :: p, q, r, x, y, by simp, hx, hy⟩
        · obtain ⟨q, r, rfl⟩ := List.append_of_mem hm
          exact ⟨[], q, r, e, y, by simp, hx, hy⟩
    rw [hsplit]
    by_cases hc : e.children = []
    · have : valStep v e = .ok (some (e.text.elim .none .str)) := by unfold valStep; rw [if_pos hc]
      rw [this]
      show els.foldlM valStep _ = _ ↔ _
      rw [ih]
      have hnl : (∃ w, some (e.text.elim Val.none Val.str) = some w ∧ ∀ l, w ≠ .list l) := by
        cases e.text <;> exact ⟨_, rfl, by simp⟩
      simp only [hnl, hc, true_and, List.mem_cons, exists_eq_or_imp, ne_eq, not_true_eq_false, false_or]
      constructor
      · exact Or.inl
      · rintro (h | ⟨_, h⟩)
        · exact h
        · exact Or.inr h
    · cases v with
      | none =>
        have : valStep none e = .ok (some (.list [Str.join "; ".toList (texts e)])) := by unfold valStep; rw [if_neg hc]
        rw [this]
        show els.foldlM valStep _ = _ ↔ _
        rw [ih]
        simp [hc]
      | some w =>
        cases w with
        | list l =>
          have : valStep (some (.list l)) e = .ok (some (.list (l ++ [Str.join "; ".toList (texts e)]))) := by unfold valStep; rw [if_neg hc]
          rw [this]
          show els.foldlM valStep _ = _ ↔ _
          rw [ih]
          simp [hc]
        | str s =>
          have : valStep (some (.str s)) e = .error .attributeError := by unfold valStep; rw [if_neg hc]
          rw [this]
          exact iff_of_true rfl (Or.inr ⟨⟨_, rfl, by simp⟩, e, by simp, hc⟩)
        | none =>
          have : valStep (some .none) e = .error .attributeError := by unfold valStep; rw [if_neg hc]
          rw [this]
          exact iff_of_true rfl (Or.inr ⟨⟨_, rfl, by simp⟩, e, by simp, hc⟩)

/-- The list a field has, empty if it is missing. -/
def listOf (d : Fields) (k : Str) : List Str := match Dict.get? d k with | some (.list l) => l | _ => []
/-- The field is missing or has a list with something in it. -/
def Lists (d : Fields) (k : Str) : Prop := Dict.get? d k = none ∨ ∃ l, l ≠ [] ∧ Dict.get? d k = some (.list l)

/-- The directorates, or divisions, of an organisation. -/
def partOf (key : Str) (org : Xml) : List Str :=
  match org.children.find? (fun c => c.tag = key) with
  | none => []
  | some e => if texts e = [] then [] else [Str.join "; ".toList (texts e)]

theorem appendTo_ok (d : Fields) (key s : Str) (h : Lists d key) :
    ∃ d', appendTo d key s = .ok d' ∧ listOf d' key = listOf d key ++ [s] ∧ Lists d' key ∧ ∀ t, t ≠ key → Dict.get? d' t = Dict.get? d t := by
  unfold appendTo
  rcases h with h | ⟨l, hl, h⟩
  · rw [h]
    exact ⟨_, rfl, by simp [listOf, h], Or.inr ⟨_, by simp, Dict.get?_set_self ..⟩, fun t ht => Dict.get?_set_ne _ _ (Ne.symm ht)⟩
  · rw [h]
    exact ⟨_, rfl, by simp [listOf, h], Or.inr ⟨_, by simp, Dict.get?_set_self ..⟩, fun t ht => Dict.get?_set_ne _ _ (Ne.symm ht)⟩

theorem addPart_ok (key : Str) (d : Fields) (org : Xml) (h : Lists d key) :
    ∃ d', addPart key d org = .ok d' ∧ listOf d' key = listOf d key ++ partOf key org ∧ Lists d' key ∧ ∀ t, t ≠ key → Dict.get? d' t = Dict.get? d t := by
  unfold addPart partOf
  cases org.children.find? (fun c => c.tag = key) with
  | none => exact ⟨d, rfl, by simp, h, fun _ _ => rfl⟩
  | some e =>
    dsimp only
    by_cases ht : texts e = []
    · simp only [ht, if_true]; exact ⟨d, rfl, by simp, h, fun _ _ => rfl⟩
    · simp only [ht, if_false]; exact appendTo_ok d key _ h

theorem Lists_congr {d d' : Fields} {k : Str} (h : Dict.get? d' k = Dict.get? d k) : Lists d k → Lists d' k := by unfold Lists; rw [h]; exact id
theorem listOf_congr {d d' : Fields} {k : Str} (h : Dict.get? d' k = Dict.get? d k) : listOf d' k = listOf d k := by unfold listOf; rw [h]

theorem orgs_ok (orgs : List Xml) : ∀ d : Fields, Lists d "Directorate".toList → Lists d "Division".toList →
    ∃ d', orgs.foldlM orgStep d = .ok d' ∧
      listOf d' "Directorate".toList = listOf d "Directorate".toList ++ orgs.flatMap (partOf "Directorate".toList) ∧
      listOf d' "Division".toList = listOf d "Division".toList ++ orgs.flatMap (partOf "Division".toList) ∧
      Lists d' "Directorate".toList ∧ Lists d' "Division".toList ∧
      ∀ t, t ≠ "Directorate".toList → t ≠ "Division".toList → Dict.get? d' t = Dict.get? d t := by
  have hne : "Division".toList ≠ "Directorate".toList := by decide
  induction orgs with
  | nil => intro d h1 h2; exact ⟨d, rfl, by simp, by simp, h1, h2, fun _ _ _ => rfl⟩
  | cons o orgs ih =>
    intro d h1 h2
    obtain ⟨d1, a1, a2, a3, a4⟩ := addPart_ok "Directorate".toList d o h1
    obtain ⟨d2, b1, b2, b3, b4⟩ := addPart_ok "Division".toList d1 o (Lists_congr (a4 _ hne) h2)
    obtain ⟨d3, c1, c2, c3, c4, c5, c6⟩ := ih d2 (Lists_congr (b4 _ hne.symm) a3) b3
    refine ⟨d3, ?_, ?_, ?_, c4, c5, ?_⟩
    · rw [List.foldlM_cons]
      have : orgStep d o = .ok d2 := by unfold orgStep; rw [a1]; exact b1
      rw [this]; exact c1
    · rw [c2, listOf_congr (b4 _ hne.symm), a2]; simp
    · rw [c3, b2, listOf_congr (a4 _ hne)]; simp
    · intro t ht1 ht2
      rw [c6 t ht1 ht2, b4 t ht2, a4 t ht1]

theorem invests_ok (es : List Xml) : ∀ d : Fields, Lists d "Investigator".toList →
    ∃ d', es.foldlM investStep d = .ok d' ∧ listOf d' "Investigator".toList = listOf d "Investigator".toList ++ es.map investString ∧
      Lists d' "Investigator".toList ∧ ∀ t, t ≠ "Investigator".toList → Dict.get? d' t = Dict.get? d t := by
  induction es with
  | nil => intro d h; exact ⟨d, rfl, by simp, h, fun _ _ => rfl⟩
  | cons e es ih =>
    intro d h
    obtain ⟨d1, a1, a2, a3, a4⟩ := appendTo_ok d "Investigator".toList (investString e) h
    obtain ⟨d2, b1, b2, b3, b4⟩ := ih d1 a3
    refine ⟨d2, ?_, by rw [b2, a2]; simp, b3, fun t ht => (b4 t ht).trans (a4 t ht)⟩
    rw [List.foldlM_cons]
    have : investStep d e = .ok d1 := a1
    rw [this]; exact b1

/-- The dictionary before the last loop. -/
theorem before_last (top : List Xml) : ∃ d : Fields, awardFields top = top.foldlM elementStep d ∧
    listOf d "Directorate".toList = (top.filter (fun e => e.tag = "Organization".toList)).flatMap (partOf "Directorate".toList) ∧
    listOf d "Division".toList = (top.filter (fun e => e.tag = "Organization".toList)).flatMap (partOf "Division".toList) ∧
    listOf d "Investigator".toList = (top.filter (fun e => e.tag = "Investigator".toList)).map investString ∧
    Lists d "Directorate".toList ∧ Lists d "Division".toList ∧ Lists d "Investigator".toList ∧
    ∀ t, t ≠ "Directorate".toList → t ≠ "Division".toList → t ≠ "Investigator".toList → Dict.get? d t = none := by
  obtain ⟨d1, a1, a2, a3, a4, a5, a6⟩ := orgs_ok (top.filter (fun e => e.tag = "Organization".toList)) [] (Or.inl rfl) (Or.inl rfl)
  obtain ⟨d2, b1, b2, b3, b4⟩ := invests_ok (top.filter (fun e => e.tag = "Investigator".toList)) d1
    (Or.inl (by rw [a6 _ (by decide) (by decide)]; rfl))
  refine ⟨d2, ?_, ?_, ?_, ?_, ?_, ?_, b3, ?_⟩
  · unfold awardFields; rw [a1]; dsimp only; rw [b1]
  · rw [listOf_congr (b4 _ (by decide)), a2]; simp [listOf]
  · rw [listOf_congr (b4 _ (by decide)), a3]; simp [listOf]
  · rw [b2, listOf_congr (a6 _ (by decide) (by decide))]; simp [listOf]
  · exact Lists_congr (b4 _ (by decide)) a4
  · exact Lists_congr (b4 _ (by decide)) a5
  · intro t h1 h2 h3; rw [b4 t h3, a6 t h1 h2]; rfl

/-! ## The theorems -/

/-- An element of the award without children gives its text to the field of its name. -/
def leafValue (e : Xml) : Val := e.text.elim .none .str
/-- An element with children gives their texts. -/
def joined (e : Xml) : Str := Str.join "; ".toList (e.children.filterMap Xml.text)

/-- C67: a field whose last element has no children has the text of this element. -/
theorem C67_leaf (top : List Xml) (d : Fields) (h : awardFields top = .ok d) (t : Str) (ht : Plain t) (p : List Xml) (e : Xml)
    (he : top.filter (fun e => e.tag = t) = p ++ [e]) (hc : e.children = []) : Dict.get? d t = some (leafValue e) := by
  obtain ⟨d0, e0, _⟩ := before_last top
  rw [e0] at h
  have := (elements_spec top d0).1 d h t
  rw [if_pos ht, he, List.foldlM_append] at this
  cases hp : p.foldlM valStep (Dict.get? d0 t) with
  | error x => rw [hp] at this; cases this
  | ok v =>
    rw [hp] at this
    have h2 : [e].foldlM valStep v = .ok (Dict.get? d t) := this
    simp only [List.foldlM_cons, List.foldlM_nil] at h2
    have hv : valStep v e = .ok (some (leafValue e)) := by unfold valStep; rw [if_pos hc]; rfl
    rw [hv] at h2
    have : Except.ok (ε := NsfErr) (some (leafValue e)) = .ok (Dict.get? d t) := h2
    exact (Except.ok.inj this).symm

/-- C67: a field whose elements all have children has one entry for each, in the order of the file. -/
theorem C67_list (top : List Xml) (d : Fields) (h : awardFields top = .ok d) (t : Str) (ht : Plain t) (ht1 : t ≠ "Directorate".toList)
    (ht2 : t ≠ "Division".toList) (hne : top.filter (fun e => e.tag = t) ≠ []) (hc : ∀ e ∈ top, e.tag = t → e.children ≠ []) :
    Dict.get? d t = some (.list ((top.filter (fun e => e.tag = t)).map joined)) := by
  obtain ⟨d0, e0, _, _, _, _, _, _, hn⟩ := before_last top
  rw [e0] at h
  have := (elements_spec top d0).1 d h t
  rw [if_pos ht, hn t ht1 ht2 ht.2] at this
  cases hf : top.filter (fun e => e.tag = t) with
  | nil => exact absurd hf hne
  | cons e es =>
    have hmem : ∀ x ∈ e :: es, x.children ≠ [] := by
      intro x hx
      rw [← hf, List.mem_filter] at hx
      exact hc x hx.1 (of_decide_eq_true hx.2)
    rw [hf, List.foldlM_cons] at this
    have hv : valStep none e = .ok (some (.list [Str.join "; ".toList (texts e)])) := by
      unfold valStep; rw [if_neg (hmem e (by simp))]
    rw [hv] at this
    have h2 : es.foldlM valStep (some (.list [Str.join "; ".toList (texts e)])) = .ok (Dict.get? d t) := this
    rw [valFold_composite es _ (fun x hx => hmem x (by simp [hx]))] at h2
    exact (Except.ok.inj h2).symm

/-- C67: a name that no element has is not a field, and `Organization` never is. -/
theorem C67_absent (top : List Xml) (d : Fields) (h : awardFields top = .ok d) :
    (∀ t, Plain t → t ≠ "Directorate".toList → t ≠ "Division".toList → (∀ e ∈ top, e.tag ≠ t) → Dict.get? d t = none) ∧
    Dict.get? d "Organization".toList = none := by
  obtain ⟨d0, e0, _, _, _, _, _, _, hn⟩ := before_last top
  rw [e0] at h
  constructor
  · intro t ht h1 h2 hall
    have := (elements_spec top d0).1 d h t
    rw [if_pos ht, hn t h1 h2 ht.2] at this
    have hf : top.filter (fun e => e.tag = t) = [] := by
      rw [List.filter_eq_nil_iff]; intro e he; simpa using hall e he
    rw [hf] at this
    exact (Except.ok.inj (this : Except.ok (ε := NsfErr) none = _)).symm
  · have := (elements_spec top d0).1 d h "Organization".toList
    rw [if_neg (by unfold Plain; simp)] at this
    rw [this]; exact hn _ (by decide) (by decide) (by decide)

theorem get_of_lists {d : Fields} {k : Str} {l : List Str} (h : Lists d k) (hl : listOf d k = l) :
    Dict.get? d k = if l = [] then none else some (.list l) := by
  rcases h with h | ⟨l', hne, h⟩
  · have : l = [] := by rw [← hl]; simp [listOf, h]
    rw [if_pos this, h]
  · have : l = l' := by rw [← hl]; simp [listOf, h]
    subst this
    rw [if_neg hne, h]

/-- C67: the investigators are those of the file, in its order, one entry for each. -/
theorem C67_investigators (top : List Xml) (d : Fields) (h : awardFields top = .ok d) (es : List Xml)
    (he : top.filter (fun e => e.tag = "Investigator".toList) = es) :
    Dict.get? d "Investigator".toList = if es = [] then none else some (.list (es.map investString)) := by
  obtain ⟨d0, e0, _, _, h3, _, _, h6, _⟩ := before_last top
  rw [e0] at h
  have := (elements_spec top d0).1 d h "Investigator".toList
  rw [if_neg (by unfold Plain; simp)] at this
  rw [this, get_of_lists h6 h3, he]
  cases es <;> simp

/-- C67: the directorates and divisions are the first ones of the organisations of the file, in its order, those without texts left out;
this holds unless an element of the award itself has that name. -/
theorem C67_organizations (top : List Xml) (d : Fields) (h : awardFields top = .ok d) (key : Str)
    (hk : key = "Directorate".toList ∨ key = "Division".toList) (hno : ∀ e ∈ top, e.tag ≠ key) :
    Dict.get? d key = (match (top.filter (fun e => e.tag = "Organization".toList)).filterMap (fun o => o.children.find? (fun c => c.tag = key))
        |>.filter (fun e => e.children.filterMap Xml.text ≠ []) with
      | [] => none
      | es => some (.list (es.map joined))) := by
  obtain ⟨d0, e0, h1, h2, _, h4, h5, _, _⟩ := before_last top
  rw [e0] at h
  have := (elements_spec top d0).1 d h key
  have hpl : Plain key := by rcases hk with rfl | rfl <;> decide
  have hf : top.filter (fun e => e.tag = key) = [] := by
    rw [List.filter_eq_nil_iff]; intro e he; simpa using hno e he
  rw [if_pos hpl, hf] at this
  have hd : Dict.get? d key = Dict.get? d0 key := (Except.ok.inj (this : Except.ok (ε := NsfErr) _ = _)).symm
  have hL : Lists d0 key := by rcases hk with rfl | rfl; exact h4; exact h5
  have hl : listOf d0 key = (top.filter (fun e => e.tag = "Organization".toList)).flatMap (partOf key) := by
    rcases hk with rfl | rfl; exact h1; exact h2
  rw [hd, get_of_lists hL hl]
  have hE : ∀ orgs : List Xml, orgs.flatMap (partOf key) =
      ((orgs.filterMap (fun o => o.children.find? (fun c => c.tag = key))).filter (fun e => e.children.filterMap Xml.text ≠ [])).map joined := by
    intro orgs
    induction orgs with
    | nil => rfl
    | cons o orgs ih =>
      rw [List.flatMap_cons, ih, List.filterMap_cons]
      unfold partOf
      cases o.children.find? (fun c => c.tag = key) with
      | none => rfl
      | some e =>
        dsimp only
        by_cases hx : texts e = []
        · rw [if_pos hx, List.filter_cons_of_neg (by simpa [texts] using hx)]; rfl
        · rw [if_neg hx, List.filter_cons_of_pos (by simpa [texts] using hx)]; rfl
  rw [hE]
  generalize (((top.filter (fun e => e.tag = "Organization".toList)).filterMap (fun o => o.children.find? (fun c => c.tag = key))).filter
    (fun e => e.children.filterMap Xml.text ≠ [])) = es
  cases es <;> simp

/-- C67 fails for some files: an element with children after one of the same name without makes the reader raise `AttributeError`, which
is not caught; nothing else makes it fail. -/
theorem C67_raises (top : List Xml) : awardFields top = .error .attributeError ↔
    ∃ p q r x y, top = p ++ x :: q ++ y :: r ∧ x.tag = y.tag ∧ Plain x.tag ∧ x.children = [] ∧ y.children ≠ [] := by
  obtain ⟨d0, e0, _, _, _, h4, h5, h6, hn⟩ := before_last top
  have hlist : ∀ t w, Dict.get? d0 t = some w → ∃ l, w = .list l := by
    intro t w hw
    by_cases a : t = "Directorate".toList
    · subst a; rcases h4 with h | ⟨l, _, h⟩ <;> rw [h] at hw
      · cases hw
      · exact ⟨l, (Option.some.inj hw).symm⟩
    · by_cases b : t = "Division".toList
      · subst b; rcases h5 with h | ⟨l, _, h⟩ <;> rw [h] at hw
        · cases hw
        · exact ⟨l, (Option.some.inj hw).symm⟩
      · by_cases c : t = "Investigator".toList
        · subst c; rcases h6 with h | ⟨l, _, h⟩ <;> rw [h] at hw
          · cases hw
          · exact ⟨l, (Option.some.inj hw).symm⟩
        · rw [hn t a b c] at hw; cases hw
  rw [e0, (elements_spec top d0).2]
  constructor
  · rintro ⟨t, ht, h⟩
    rw [valFold_error] at h
    rcases h with ⟨p, q, r, x, y, h, hx, hy⟩ | ⟨⟨w, hw, hnl⟩, _⟩
    · have hpre : p ++ x :: q ++ y :: r = p ++ (x :: (q ++ y :: r)) := by simp
      rw [hpre, List.filter_eq_append_iff] at h
      obtain ⟨l1, l2, rfl, _, h⟩ := h
      rw [List.filter_eq_cons_iff] at h
      obtain ⟨m1, m2, rfl, _, hxt, h⟩ := h
      rw [List.filter_eq_append_iff] at h
      obtain ⟨n1, n2, rfl, _, h⟩ := h
      rw [List.filter_eq_cons_iff] at h
      obtain ⟨k1, k2, rfl, _, hyt, _⟩ := h
      simp only [decide_eq_true_eq] at hxt hyt
      refine ⟨l1 ++ m1, n1 ++ k1, k2, x, y, by simp, hxt.trans hyt.symm, by rw [hxt]; exact ht, hx, hy⟩
    · obtain ⟨l, rfl⟩ := hlist t w hw
      exact absurd rfl (hnl l)
  · rintro ⟨p, q, r, x, y, rfl, hxy, hpl, hx, hy⟩
    refine ⟨x.tag, hpl, ?_⟩
    rw [valFold_error]
    refine Or.inl ⟨p.filter (fun e => e.tag = x.tag), q.filter (fun e => e.tag = x.tag), r.filter (fun e => e.tag = x.tag), x, y, ?_, hx, hy⟩
    rw [List.filter_append, List.filter_append, List.filter_cons_of_pos (by simp), List.filter_cons_of_pos (by simp [hxy])]

/-- What an investigator's entry says: first names in reverse order, last names, and the other texts after a semicolon. -/
theorem C67_entry (e : Xml) : investString e =
    Str.join " ".toList ((e.children.filter (fun c => c.tag = "FirstName".toList)).filterMap Xml.text |>.reverse |>.append
        ((e.children.filter (fun c => c.tag = "LastName".toList)).filterMap Xml.text)) ++ "; ".toList ++
      Str.join ", ".toList ((e.children.filter (fun c => c.tag ≠ "FirstName".toList ∧ c.tag ≠ "LastName".toList)).filterMap Xml.text) := by
  have hs : ∀ (a o : List Str) (c : Xml), partStep (a, o) c = match c.text with
        | none => (a, o)
        | some x => if c.tag = "FirstName".toList then (x :: a, o) else if c.tag = "LastName".toList then (a ++ [x], o) else (a, o ++ [x]) :=
    fun _ _ _ => rfl
  have hne : "LastName".toList ≠ "FirstName".toList := by decide
  unfold investString
  generalize "FirstName".toList = F at *
  generalize "LastName".toList = L at *
  have key : ∀ (cs : List Xml) (f l o : List Str), cs.foldl partStep (f ++ l, o) =
      (((cs.filter (fun c => c.tag = F)).filterMap Xml.text).reverse ++ f ++ (l ++ (cs.filter (fun c => c.tag = L)).filterMap Xml.text),
        o ++ (cs.filter (fun c => c.tag ≠ F ∧ c.tag ≠ L)).filterMap Xml.text) := by
    intro cs
    induction cs with
    | nil => intro f l o; simp
    | cons c cs ih =>
      intro f l o
      rw [List.foldl_cons]
      rw [hs]
      by_cases h1 : c.tag = F
      · have h2 : ¬ c.tag = L := by rw [h1]; exact hne.symm
        rw [List.filter_cons_of_pos (by simpa using h1), List.filter_cons_of_neg (by simpa using h2), List.filter_cons_of_neg (by simp [h1])]
        cases hx : c.text with
        | none => simp only [List.filterMap_cons, hx]; exact ih f l o
        | some x =>
          simp only [List.filterMap_cons, hx, h1, if_true]
          have := ih (x :: f) l o
          simp only [List.cons_append] at this
          rw [this]; simp
      · by_cases h2 : c.tag = L
        · rw [List.filter_cons_of_neg (by simpa using h1), List.filter_cons_of_pos (by simpa using h2), List.filter_cons_of_neg (by simp [h2])]
          cases hx : c.text with
          | none => simp only [List.filterMap_cons, hx]; exact ih f l o
          | some x =>
            simp only [List.filterMap_cons, hx]
            rw [if_neg h1, if_pos h2, List.append_assoc f l [x]]
            rw [ih f (l ++ [x]) o]; simp
        · rw [List.filter_cons_of_neg (by simpa using h1), List.filter_cons_of_neg (by simpa using h2), List.filter_cons_of_pos (by simp [h1, h2])]
          cases hx : c.text with
          | none => simp only [List.filterMap_cons, hx]; exact ih f l o
          | some x =>
            simp only [List.filterMap_cons, hx]
            rw [if_neg h1, if_neg h2]
            rw [ih f l (o ++ [x])]; simp
  have := key e.children [] [] []
  simp only [List.nil_append, List.append_nil] at this ⊢
  rw [this]
  rfl

theorem semi_join : ∀ l : List Str, (∀ x ∈ l, ';' ∉ x) → ';' ∉ Str.join " ".toList l := by
  intro l
  induction l with
  | nil => intro _; simp [Str.join]
  | cons x l ih =>
    intro hl
    cases l with
    | nil => simpa [Str.join] using hl x (by simp)
    | cons y l =>
      rw [Str.join_cons _ _ _ (by simp)]
      have := ih (fun z hz => hl z (by simp [hz]))
      have hx := hl x (by simp)
      simp only [List.mem_append, not_or]
      exact ⟨⟨hx, by decide⟩, this⟩

theorem head_entry : ∀ a b : Str, ';' ∉ a → (Str.split ";".toList (a ++ "; ".toList ++ b)).headD [] = a := by
  intro a b ha
  have : a ++ "; ".toList ++ b = a ++ ";".toList ++ (" ".toList ++ b) := by simp
  rw [this]
  unfold Str.split
  have hsep : ¬ ";".toList <:+: a ++ (";".toList).dropLast := by
    intro hin
    apply ha
    have hmem : ';' ∈ a ++ (";".toList).dropLast := hin.subset (by decide)
    simpa using hmem
  rw [Str.splitGo_append ";".toList (by decide) [] a _ hsep]
  rfl

/-- C67, `getInvestigators` of an award: one name for each investigator of the file, in its order, the names joined by blanks and trimmed,
if no name has a semicolon. -/
theorem C67_names (ws : Char → Bool) (top : List Xml) (d : Fields) (h : awardFields top = .ok d)
    (hsemi : ∀ e ∈ top, e.tag = "Investigator".toList → ∀ c ∈ e.children, ∀ x, c.text = some x → ';' ∉ x) :
    nsfInvestigators ws "Investigator".toList d .none ";".toList =
      .ok ((top.filter (fun e => e.tag = "Investigator".toList)).map (fun e => Str.strip ws (Str.join " ".toList
        (((e.children.filter (fun c => c.tag = "FirstName".toList)).filterMap Xml.text).reverse ++
          (e.children.filter (fun c => c.tag = "LastName".toList)).filterMap Xml.text)))) := by
  have hget := C67_investigators top d h _ rfl
  have hnames : ∀ es : List Xml, (∀ e ∈ es, ∀ c ∈ e.children, ∀ x, c.text = some x → ';' ∉ x) →
      (es.map investString).map (fun a => Str.strip ws ((Str.split ";".toList a).headD [])) =
      es.map (fun e => Str.strip ws (Str.join " ".toList (((e.children.filter (fun c => c.tag = "FirstName".toList)).filterMap Xml.text).reverse ++
          (e.children.filter (fun c => c.tag = "LastName".toList)).filterMap Xml.text))) := by
    intro es hes
    rw [List.map_map]
    refine List.map_congr_left (fun e he => ?_)
    show Str.strip ws ((Str.split ";".toList (investString e)).headD []) = _
    rw [C67_entry, head_entry]
    · rfl
    · refine semi_join _ (fun x hx => ?_)
      have hx' : x ∈ ((e.children.filter (fun c => c.tag = "FirstName".toList)).filterMap Xml.text).reverse ++
          (e.children.filter (fun c => c.tag = "LastName".toList)).filterMap Xml.text := hx
      rw [List.mem_append, List.mem_reverse, List.mem_filterMap, List.mem_filterMap] at hx'
      rcases hx' with ⟨c, hc, hcx⟩ | ⟨c, hc, hcx⟩
      · exact hes e he c (List.mem_filter.1 hc).1 x hcx
      · exact hes e he c (List.mem_filter.1 hc).1 x hcx
  have hes : ∀ e ∈ top.filter (fun e => e.tag = "Investigator".toList), ∀ c ∈ e.children, ∀ x, c.text = some x → ';' ∉ x := by
    intro e he
    rw [List.mem_filter] at he
    exact hsemi e he.1 (of_decide_eq_true he.2)
  have hN := hnames _ hes
  unfold nsfInvestigators nsfTags getInvestigators
  dsimp only
  unfold investigatorsOf
  rw [hget]
  by_cases hE : top.filter (fun e => e.tag = "Investigator".toList) = []
  · rw [if_pos hE, hE]; rfl
  · rw [if_neg hE]
    dsimp only
    have hnm : ∀ l : List Str, namesOf ws ";".toList (.list l) = .ok (l.map (fun a => Str.strip ws ((Str.split ";".toList a).headD []))) := by
      intro l
      have hc : ¬ (";".toList = [] ∧ l ≠ []) := fun h => absurd h.1 (by decide)
      exact if_neg (t := Except.error GErr.value) hc
    rw [hnm, hN]
    generalize List.map _ (List.filter _ top) = R
    show Except.ok (List.map Prod.fst (List.map (fun n => (n, "Investigator".toList)) R ++ [])) = _
    rw [List.append_nil, List.map_map]
    congr 1
    exact List.map_id R

/-- C67, identity: an award with a number is known by it; one without is bad and known by its file. -/
theorem C67_id (str : List Str → Str) (file : Str) (top : List Xml) (d : Fields) (h : awardFields top = .ok d) :
    (∀ p e n, top.filter (fun e => e.tag = "AwardID".toList) = p ++ [e] → e.children = [] → e.text = some n → n ≠ [] →
      award str file d = ("NSF:".toList ++ n, false)) ∧
    ((∀ e ∈ top, e.tag ≠ "AwardID".toList) → award str file d = ("NSF:".toList ++ file, true)) := by
  constructor
  · intro p e n he hc hx hn
    have := C67_leaf top d h "AwardID".toList (by decide) p e he hc
    unfold award
    rw [this]
    unfold leafValue
    rw [hx]
    cases n with
    | nil => exact absurd rfl hn
    | cons c n => rfl
  · intro hall
    have := (C67_absent top d h).1 "AwardID".toList (by decide) (by decide) (by decide) hall
    unfold award
    rw [this]

/-- C67, files: a file is taken for an award file exactly when it is named so (unless the name is to be ignored), is XML and holds one award. Such a
file gives the grant of that award, unless reading its elements raises (`C67_raises`); there is no other way to fail. -/
theorem C67_file (str : List Str → Str) (base file : Str) (useName : Bool) (parsed : Option Xml) :
    (isNSF base useName parsed = true ↔ (useName = true → ".xml".toList <:+ base) ∧
      ∃ root a p q, parsed = some root ∧ root.children = p ++ a :: q ∧ a.tag = "Award".toList ∧ (∀ e ∈ p ++ q, e.tag ≠ "Award".toList)) ∧
    (∀ root a p q, parsed = some root → root.children = p ++ a :: q → a.tag = "Award".toList → (∀ e ∈ p, e.tag ≠ "Award".toList) →
      (∀ d, awardFields a.children = .ok d → parserNSF str file parsed = .grant d (award str file d).1 (award str file d).2) ∧
      (awardFields a.children = .error .attributeError → parserNSF str file parsed = .raised)) := by
  constructor
  · unfold isNSF
    by_cases hu : (useName && !(".xml".toList.isSuffixOf base)) = true
    · rw [if_pos hu]
      simp only [Bool.and_eq_true, Bool.not_eq_true'] at hu
      constructor
      · intro h; cases h
      · rintro ⟨h, _⟩
        have := List.isSuffixOf_iff_suffix.2 (h hu.1)
        rw [hu.2] at this
        cases this
    · rw [if_neg hu]
      have hn : useName = true → ".xml".toList <:+ base := by
        intro hu'
        apply List.isSuffixOf_iff_suffix.1
        cases hb : ".xml".toList.isSuffixOf base with
        | true => rfl
        | false => exact absurd (by rw [hu', hb]; rfl) hu
      cases parsed with
      | none =>
        constructor
        · intro h; cases h
        · rintro ⟨_, root, a, p, q, h, _⟩; cases h
      | some root =>
        dsimp only
        constructor
        · intro h
          split at h
          · cases h
          rename_i hl
          have hl : (root.children.filter (fun e => e.tag = "Award".toList)).length = 1 := Decidable.not_not.1 hl
          obtain ⟨a, ha⟩ := List.length_eq_one_iff.1 hl
          have hm : a ∈ root.children.filter (fun e => e.tag = "Award".toList) := by rw [ha]; exact List.mem_singleton_self _
          have hat : a.tag = "Award".toList := of_decide_eq_true (List.mem_filter.1 hm).2
          obtain ⟨p, q, hpq⟩ := List.append_of_mem (List.mem_filter.1 hm).1
          refine ⟨hn, root, a, p, q, rfl, hpq, hat, ?_⟩
          rw [hpq, List.filter_append, List.filter_cons_of_pos (by simpa using hat)] at hl
          simp only [List.length_append, List.length_cons] at hl
          intro e he het
          rcases List.mem_append.1 he with he | he
          · have := List.length_pos_of_mem (List.mem_filter (p := fun e : Xml => decide (e.tag = "Award".toList)).2 ⟨he, decide_eq_true het⟩)
            omega
          · have := List.length_pos_of_mem (List.mem_filter (p := fun e : Xml => decide (e.tag = "Award".toList)).2 ⟨he, decide_eq_true het⟩)
            omega
        · rintro ⟨_, root', a, p, q, h, hpq, hat, hno⟩
          cases h
          rw [hpq, List.filter_append, List.filter_cons_of_pos (by simpa using hat),
            List.filter_eq_nil_iff.2 (fun e he => by simpa using hno e (List.mem_append_left _ he)),
            List.filter_eq_nil_iff.2 (fun e he => by simpa using hno e (List.mem_append_right _ he))]
          rfl
  · rintro root a p q rfl hpq hat hno
    have hf : root.children.find? (fun e => decide (e.tag = "Award".toList)) = some a := by
      rw [hpq, List.find?_append, List.find?_eq_none.2 (fun e he => by simpa using hno e he), List.find?_cons_of_pos (by simpa using hat)]
      rfl
    unfold parserNSF
    dsimp only
    rw [hf]
    dsimp only
    constructor
    · intro d hd; rw [hd]
    · intro hd; rw [hd]

/-- C67 fails for a file without an award that is read all the same: `AttributeError` is raised instead of an error being returned. -/
theorem C67_no_award (str : List Str → Str) (file : Str) (root : Xml) (h : ∀ e ∈ root.children, e.tag ≠ "Award".toList) (base : Str) (useName : Bool) :
    isNSF base useName (some root) = false ∧ parserNSF str file (some root) = .raised := by
  constructor
  · apply Bool.eq_false_iff.2
    intro ht
    obtain ⟨_, r, a, p, q, e, hpq, hat, _⟩ := ((C67_file str base file useName _).1).1 ht
    cases e
    exact h a (by rw [hpq]; simp) hat
  · unfold parserNSF
    dsimp only
    rw [List.find?_eq_none.2 (fun e he => by simpa using h e he)]

/-- C67 fails for an empty element: `<AwardID/>` gives the id `NSF:None`, and the award is not bad, so all such awards are one. -/
theorem C67_empty_id (str : List Str → Str) (file file' : Str) : ∃ top d, awardFields top = .ok d ∧
    award str file d = ("NSF:None".toList, false) ∧ award str file' d = award str file d :=
  ⟨[.mk "AwardID".toList none []], [("AwardID".toList, .none)], by rfl, rfl, rfl⟩

/-- C67 fails for repeated elements without children: only the last is kept. -/
theorem C67_repeated_lost : awardFields [.mk "Note".toList (some "a".toList) [], .mk "Note".toList (some "b".toList) []] =
    .ok [("Note".toList, .str "b".toList)] := by rfl

/-! ## Examples -/

private def exInv (f l m : String) : Xml := .mk "Investigator".toList none
  [.mk "FirstName".toList (some f.toList) [], .mk "LastName".toList (some l.toList) [], .mk "Email".toList (some m.toList) []]
private def exTop : List Xml :=
  [.mk "AwardID".toList (some "123".toList) [], exInv "Ann" "Lee" "a@b", exInv "Bo" "Yu" "c@d",
   .mk "Institution".toList none [.mk "Name".toList (some "U".toList) [], .mk "City".toList (some "C".toList) []],
   .mk "Organization".toList none [.mk "Directorate".toList none [.mk "LongName".toList (some "D".toList) []]]]

example : awardFields exTop = .ok [("Directorate".toList, .list ["D".toList]),
    ("Investigator".toList, .list ["Ann Lee; a@b".toList, "Bo Yu; c@d".toList]), ("AwardID".toList, .str "123".toList),
    ("Institution".toList, .list ["U; C".toList])] := by rfl
example : ∀ e ∈ exTop, e.tag = "Investigator".toList → ∀ c ∈ e.children, ∀ x, c.text = some x → ';' ∉ x := by
  have h : exTop.all (fun e => e.tag ≠ "Investigator".toList || e.children.all (fun c => c.text.all (fun x => ';' ∉ x))) = true := by rfl
  intro e he ht c hc x hx
  have h1 := List.all_eq_true.1 h e he
  simp only [ht, ne_eq, not_true_eq_false, decide_false, Bool.false_or] at h1
  have h2 := List.all_eq_true.1 h1 c hc
  rw [hx] at h2
  exact of_decide_eq_true h2
example : awardFields [.mk "A".toList none [], .mk "A".toList none [.mk "B".toList none []]] = .error .attributeError := by rfl

end Verif.Props.Nsf
