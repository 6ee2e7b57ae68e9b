import Verif.Lemmas.NetworkAttrs2

/-! # The types of the nodes of two-mode and n-mode networks, exactly -/
set_option autoImplicit false
set_option linter.unusedSectionVars false
set_option linter.unusedSimpArgs false
namespace Verif.Lemmas.NetworkTypes
open Verif.Py Verif.Py.Graph Verif.Model.Networks Verif.Model.Series Verif.Spec Verif.Model.NetworkAttrs

variable {ρ α ν σ τ : Type} [DecidableEq ν] [DecidableEq σ]

/-- What the update says of node `m`. -/
def tagOn (m : ν) : Ev ν τ → Option τ
  | .edge _ _ => none
  | .node n t => if n = m then some t else none

/-- What the node updates of `m` say, in order. -/
def tagsOn (m : ν) (evs : List (Ev ν τ)) : List τ := evs.filterMap (tagOn m)

theorem tagsOn_append (m : ν) (l l' : List (Ev ν τ)) : tagsOn m (l ++ l') = tagsOn m l ++ tagsOn m l' := List.filterMap_append ..

theorem tagsOn_flatMap (m : ν) (evs : ρ → List (Ev ν τ)) (recs : List ρ) :
    tagsOn m (recs.flatMap evs) = recs.flatMap (fun r => tagsOn m (evs r)) := List.filterMap_flatMap ..

/-- A counted node takes its type when its count is made. -/
structure Late (f : τ → Option NodeAttr → NodeAttr) (lossy : τ → Bool) (tagOf : τ → String) : Prop where
  new : ∀ t, f t none = { count := if lossy t then none else some 1, type := some (tagOf t) }
  first : ∀ t a, a.count = none → f t (some a) = { count := some 1, type := some (tagOf t) }
  later : ∀ t a n, a.count = some n → f t (some a) = { count := some (n + 1), type := a.type }

theorem late_some {f : τ → Option NodeAttr → NodeAttr} {lossy : τ → Bool} {tagOf : τ → String} (hf : Late f lossy tagOf) (m : ν)
    (evs : List (Ev ν τ)) (a : NodeAttr) :
    ∃ b, evs.foldl (Ev.onNode f m) (some a) = some b ∧
      b.type = if a.count = none then ((tagsOn m evs).head?.map tagOf).or a.type else a.type := by
  induction evs generalizing a with
  | nil => exact ⟨a, rfl, by simp [tagsOn]⟩
  | cons e l ih =>
    rw [List.foldl_cons]
    cases e with
    | edge u v =>
      have h1 : Ev.onNode f m (some a) (.edge u v) = some a := by by_cases h : u = m ∨ v = m <;> simp [Ev.onNode, h]
      have h2 : tagsOn m (Ev.edge u v :: l) = tagsOn m l := rfl
      rw [h1, h2]; exact ih a
    | node n t =>
      by_cases hn : n = m
      · have h1 : Ev.onNode f m (some a) (.node n t) = some (f t (some a)) := by simp [Ev.onNode, hn]
        have h2 : tagsOn m (Ev.node n t :: l) = t :: tagsOn m l := by simp [tagsOn, tagOn, hn]
        rw [h1, h2]
        obtain ⟨b, hb1, hb2⟩ := ih (f t (some a))
        refine ⟨b, hb1, ?_⟩
        rw [hb2]
        cases hc : a.count with
        | none => rw [hf.first t a hc]; simp
        | some k => rw [hf.later t a k hc]; simp
      · have h1 : Ev.onNode f m (some a) (.node n t) = some a := by simp [Ev.onNode, hn]
        have h2 : tagsOn m (Ev.node n t :: l) = tagsOn m l := by simp [tagsOn, tagOn, hn]
        rw [h1, h2]; exact ih a

theorem late_fold {f : τ → Option NodeAttr → NodeAttr} {lossy : τ → Bool} {tagOf : τ → String} (hf : Late f lossy tagOf) (m : ν)
    (evs : List (Ev ν τ)) (b : NodeAttr) (hb : evs.foldl (Ev.onNode f m) none = some b) :
    b.type = ((((tagsOn m evs).drop (Ev.lossyFirst lossy (evs.find? (Ev.mentions m)))).head?).or (tagsOn m evs).head?).map tagOf := by
  induction evs with
  | nil => simp at hb
  | cons e l ih =>
    rw [List.foldl_cons] at hb
    cases e with
    | edge u v =>
      have h2 : tagsOn m (Ev.edge u v :: l) = tagsOn m l := rfl
      by_cases hm : u = m ∨ v = m
      · have h1 : Ev.onNode f m none (.edge u v) = some default := by simp [Ev.onNode, hm]
        have h3 : (Ev.edge u v :: l).find? (Ev.mentions m) = some (Ev.edge u v : Ev ν τ) := by
          rw [List.find?_cons_of_pos]; simp [Ev.mentions, hm]
        obtain ⟨b', hb1, hb2⟩ := late_some hf m l default
        rw [h1, hb1, Option.some.injEq] at hb
        subst hb
        rw [hb2, h2, h3]
        simp [default, Ev.lossyFirst]
      · have h1 : Ev.onNode f m none (.edge u v) = none := by simp [Ev.onNode, hm]
        have h3 : (Ev.edge u v :: l).find? (Ev.mentions m) = l.find? (Ev.mentions m) := by
          rw [List.find?_cons_of_neg]; simpa [Ev.mentions] using hm
        rw [h1] at hb
        rw [h2, h3]; exact ih hb
    | node n t =>
      by_cases hn : n = m
      · have h1 : Ev.onNode f m none (.node n t) = some (f t none) := by simp [Ev.onNode, hn]
        have h2 : tagsOn m (Ev.node n t :: l) = t :: tagsOn m l := by simp [tagsOn, tagOn, hn]
        have h3 : (Ev.node n t :: l).find? (Ev.mentions m) = some (Ev.node n t : Ev ν τ) := by
          rw [List.find?_cons_of_pos]; simp [Ev.mentions, hn]
        obtain ⟨b', hb1, hb2⟩ := late_some hf m l (f t none)
        rw [h1, hb1, Option.some.injEq] at hb
        subst hb
        rw [hb2, h2, h3, hf.new]
        simp only [Ev.lossyFirst]
        cases lossy t <;> cases tagsOn m l <;> simp
      · have h1 : Ev.onNode f m none (.node n t) = none := by simp [Ev.onNode, hn]
        have h2 : tagsOn m (Ev.node n t :: l) = tagsOn m l := by simp [tagsOn, tagOn, hn]
        have h3 : (Ev.node n t :: l).find? (Ev.mentions m) = l.find? (Ev.mentions m) := by
          rw [List.find?_cons_of_neg]; simpa [Ev.mentions] using hn
        rw [h1] at hb
        rw [h2, h3]; exact ih hb

theorem late_twoNode (tag1 tag2 : String) :
    Late (twoNode true true tag1 tag2) (fun b => !b) (fun b => if b then tag2 else tag1) := by
  refine ⟨fun t => ?_, fun t a h => ?_, fun t a n h => ?_⟩
  · cases t <;> simp [twoNode, tag1Node, tag2Node]
  · cases t <;> simp [twoNode, tag1Node, tag2Node, h]
  · cases t <;> simp [twoNode, tag1Node, tag2Node, h]

theorem late_multiModeNode : Late (multiModeNode true true) (fun _ => true) (fun t => t) := by
  refine ⟨fun t => ?_, fun t a h => ?_, fun t a n h => ?_⟩
  · simp [multiModeNode]
  · simp [multiModeNode, h]
  · simp [multiModeNode, h]

/-- A fold over the types: what holds when an update makes a new type out of the old one. -/
theorem fold_type {f : τ → Option NodeAttr → NodeAttr} (step : Option String → τ → Option String)
    (hf : ∀ t o, (f t o).type = step (o.bind NodeAttr.type) t) (m : ν) (evs : List (Ev ν τ)) (o : Option NodeAttr) :
    (evs.foldl (Ev.onNode f m) o).bind NodeAttr.type = (tagsOn m evs).foldl step (o.bind NodeAttr.type) := by
  induction evs generalizing o with
  | nil => rfl
  | cons e l ih =>
    rw [List.foldl_cons, ih]
    cases e with
    | edge u v =>
      have h2 : tagsOn m (Ev.edge u v :: l) = tagsOn m l := rfl
      rw [h2]
      by_cases h : u = m ∨ v = m
      · cases o <;> simp [Ev.onNode, h, default]
      · simp [Ev.onNode, h]
    | node n t =>
      by_cases hn : n = m
      · have h2 : tagsOn m (Ev.node n t :: l) = t :: tagsOn m l := by simp [tagsOn, tagOn, hn]
        rw [h2, List.foldl_cons]
        simp [Ev.onNode, hn, hf]
      · have h2 : tagsOn m (Ev.node n t :: l) = tagsOn m l := by simp [tagsOn, tagOn, hn]
        rw [h2]
        simp [Ev.onNode, hn]

/-- Without counting a node has no count. -/
theorem fold_count {f : τ → Option NodeAttr → NodeAttr} (hf : ∀ t o, o.bind NodeAttr.count = none → (f t o).count = none) (m : ν)
    (evs : List (Ev ν τ)) (o : Option NodeAttr) (ho : o.bind NodeAttr.count = none) :
    (evs.foldl (Ev.onNode f m) o).bind NodeAttr.count = none := by
  induction evs generalizing o with
  | nil => exact ho
  | cons e l ih =>
    rw [List.foldl_cons]
    apply ih
    cases e with
    | edge u v =>
      by_cases h : u = m ∨ v = m
      · cases o <;> simp [Ev.onNode, h, default] at ho ⊢; exact ho
      · simpa [Ev.onNode, h] using ho
    | node n t =>
      by_cases hn : n = m
      · simpa [Ev.onNode, hn] using hf t o ho
      · simpa [Ev.onNode, hn] using ho

theorem uncounted_twoNode (r : Bool) (tag1 tag2 : String) (t : Bool) (o : Option NodeAttr) (h : o.bind NodeAttr.count = none) :
    (twoNode false r tag1 tag2 t o).count = none := by
  cases o with
  | none => cases t <;> cases r <;> simp [twoNode, tag1Node, tag2Node]
  | some a =>
    have h' : a.count = none := by simpa using h
    cases ht : a.type <;> cases t <;> cases r <;> simp [twoNode, tag1Node, tag2Node, h', ht]

theorem uncounted_multiModeNode (r : Bool) (t : String) (o : Option NodeAttr) (h : o.bind NodeAttr.count = none) :
    (multiModeNode false r t o).count = none := by
  cases o with
  | none => cases r <;> simp [multiModeNode]
  | some a =>
    have h' : a.count = none := by simpa using h
    cases r
    · simp [multiModeNode, h']
    · simp only [multiModeNode]
      cases ht : a.type <;> simp [h']

theorem untyped_twoNode (c : Bool) (tag1 tag2 : String) (t : Bool) (o : Option NodeAttr) :
    (twoNode c false tag1 tag2 t o).type = (fun (o : Option String) (_ : Bool) => o) (o.bind NodeAttr.type) t := by
  cases o with
  | none => cases t <;> cases c <;> simp [twoNode, tag1Node, tag2Node]
  | some a => cases hc : a.count <;> cases t <;> cases c <;> simp [twoNode, tag1Node, tag2Node, hc]

theorem untyped_multiModeNode (c : Bool) (t : String) (o : Option NodeAttr) :
    (multiModeNode c false t o).type = (fun (o : Option String) (_ : String) => o) (o.bind NodeAttr.type) t := by
  cases o with
  | none => cases c <;> simp [multiModeNode]
  | some a => cases hc : a.count <;> cases c <;> simp [multiModeNode, hc]

theorem foldl_keep {τ : Type} (l : List τ) (o : Option String) : l.foldl (fun o _ => o) o = o := by
  induction l with
  | nil => rfl
  | cons t l ih => rw [List.foldl_cons, ih]

theorem plain_twoNode (tag1 tag2 : String) (t : Bool) (o : Option NodeAttr) :
    (twoNode false true tag1 tag2 t o).type =
      (fun (o : Option String) (b : Bool) => o.or (some (if b then tag2 else tag1))) (o.bind NodeAttr.type) t := by
  cases o with
  | none => cases t <;> simp [twoNode, tag1Node, tag2Node]
  | some a => cases hc : a.type <;> cases t <;> simp [twoNode, tag1Node, tag2Node, hc]

theorem joined_multiModeNode (t : String) (o : Option NodeAttr) :
    (multiModeNode false true t o).type =
      (fun (o : Option String) (t : String) => some (o.getD "" ++ t)) (o.bind NodeAttr.type) t := by
  cases o with
  | none => simp [multiModeNode]
  | some a => cases hc : a.type <;> simp [multiModeNode, hc]

theorem foldl_first (g : τ → String) (l : List τ) (o : Option String) :
    l.foldl (fun o b => o.or (some (g b))) o = o.or (l.head?.map g) := by
  induction l generalizing o with
  | nil => simp
  | cons t l ih => rw [List.foldl_cons, ih]; cases o <;> simp

theorem foldl_joined (l : List String) (o : Option String) :
    l.foldl (fun (o : Option String) t => some (o.getD "" ++ t)) o = if l = [] then o else some (o.getD "" ++ l.foldl (· ++ ·) "") := by
  have key : ∀ (l : List String) (s : String), l.foldl (· ++ ·) s = s ++ l.foldl (· ++ ·) "" := by
    intro l
    induction l with
    | nil => simp
    | cons t l ih => intro s; rw [List.foldl_cons, ih (s ++ t), List.foldl_cons, ih ("" ++ t)]; simp [String.append_assoc]
  induction l generalizing o with
  | nil => simp
  | cons t l ih =>
    rw [List.foldl_cons, ih, List.foldl_cons]
    by_cases h : l = []
    · subst h; simp
    · rw [if_neg h, if_neg (by simp), Option.getD_some, key l ("" ++ t)]
      simp [String.append_assoc]

theorem tagsOn_nodes (m : ν) (l : List ν) (t : τ) : tagsOn m (l.map (fun y => Ev.node y t)) = List.replicate (l.count m) t := by
  induction l with
  | nil => rfl
  | cons x l ih =>
    rw [List.map_cons, List.count_cons]
    unfold tagsOn at ih ⊢
    rw [List.filterMap_cons, ih]
    by_cases h : x = m
    · simp [tagOn, h, List.replicate_succ]
    · simp [tagOn, h]

theorem tagsOn_edges (m : ν) (l : List (Ev ν τ)) (h : ∀ e ∈ l, ∃ u v, e = Ev.edge u v) : tagsOn m l = [] := by
  unfold tagsOn
  rw [List.filterMap_eq_nil_iff]
  intro e he
  obtain ⟨u, v, rfl⟩ := h e he
  rfl

theorem tagsOn_block (m : ν) (l : List ν) (t : τ) (es : ν → List (Ev ν τ)) (h : ∀ x, ∀ e ∈ es x, ∃ u v, e = Ev.edge u v) :
    tagsOn m (l.flatMap (fun x => es x ++ [Ev.node x t])) = List.replicate (l.count m) t := by
  induction l with
  | nil => rfl
  | cons x l ih =>
    rw [List.flatMap_cons, tagsOn_append, ih, tagsOn_append, tagsOn_edges m _ (h x), List.count_cons]
    by_cases hx : x = m
    · simp [tagsOn, tagOn, hx, List.replicate_succ]
    · simp [tagsOn, tagOn, hx]

theorem tagsOn_twoEvs (m : ν) (c1 c2 : List ν) :
    tagsOn m (twoEvs c1 c2) = List.replicate (c1.count m) false ++ List.replicate (c2.count m) true := by
  rw [twoEvs, tagsOn_append, tagsOn_nodes, tagsOn_block m c1 false]
  intro x e he
  obtain ⟨y, _, rfl⟩ := List.mem_map.1 he
  exact ⟨_, _, rfl⟩

theorem tagsOn_twoKeyEvs (m : ν) (ks : List σ) (c1 c2 : List ν) :
    tagsOn m ((twoKeyEvs ks c1 c2).map MultiGraph.Ev.plain) =
      List.replicate (c1.count m) false ++ List.replicate (c2.count m) true := by
  rw [twoKeyEvs, List.map_append, tagsOn_append, List.map_map, List.map_flatMap]
  have h1 : c2.map (MultiGraph.Ev.plain ∘ fun y => (MultiGraph.Ev.node y true : MultiGraph.Ev ν σ Bool)) =
      c2.map (fun y => Ev.node y true) := rfl
  have h2 : (fun x => (c2.flatMap (fun y => ks.map (fun k => (MultiGraph.Ev.edge x y k : MultiGraph.Ev ν σ Bool))) ++
      [MultiGraph.Ev.node x false]).map MultiGraph.Ev.plain) =
      fun x => (c2.flatMap (fun y => ks.map (fun k => (MultiGraph.Ev.edge x y k : MultiGraph.Ev ν σ Bool)))).map MultiGraph.Ev.plain ++
        [Ev.node x false] := by funext x; rw [List.map_append]; rfl
  rw [h1, h2, tagsOn_nodes, tagsOn_block m c1 false]
  intro x e he
  obtain ⟨e', he', rfl⟩ := List.mem_map.1 he
  obtain ⟨y, _, he'⟩ := List.mem_flatMap.1 he'
  obtain ⟨k, _, rfl⟩ := List.mem_map.1 he'
  exact ⟨_, _, rfl⟩

theorem tagsOn_modeEvs (m : ν) (cs : List (String × List ν)) :
    tagsOn m (modeEvs cs) = cs.flatMap (fun c => List.replicate (c.2.count m) c.1) := by
  induction cs with
  | nil => rfl
  | cons p cs ih =>
    rw [modeEvs, tagsOn_append, ih, List.flatMap_cons, tagsOn_block m p.2 p.1]
    intro x e he
    obtain ⟨c, _, he⟩ := List.mem_flatMap.1 he
    obtain ⟨y, _, rfl⟩ := List.mem_map.1 he
    exact ⟨_, _, rfl⟩

end Verif.Lemmas.NetworkTypes
