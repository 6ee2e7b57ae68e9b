import Verif.Lemmas.Networks

/-! Lemmas for `networkTwoMode` and `networkMultiMode`. -/
set_option autoImplicit false
set_option linter.unusedSectionVars false
namespace Verif.Model.Networks
open Verif.Py Verif.Py.Graph Verif.Spec Verif.Model.Series

variable {ρ α ν τ : Type} [DecidableEq ν]

/-- The count of a node, zero without one. -/
def cntOf (o : Option NodeAttr) : Nat := (o.bind (·.count)).getD 0

/-- A node update that counts, except that it may forget to when the node is new. -/
structure Counting (f : τ → Option NodeAttr → NodeAttr) (lossy : τ → Bool) : Prop where
  old : ∀ t a, (f t (some a)).count = some (a.count.getD 0 + 1)
  new : ∀ t, (f t none).count = if lossy t then none else some 1

/-- The update forgets a count when it is the first to mention the node. -/
def Ev.lossyFirst (lossy : τ → Bool) : Option (Ev ν τ) → Nat
  | some (.node _ t) => if lossy t then 1 else 0
  | _ => 0

/-- A node never has the count 0 stored. -/
def NoZero (o : Option NodeAttr) : Prop := ∀ a, o = some a → a.count ≠ some 0

theorem fold_counting_some {f : τ → Option NodeAttr → NodeAttr} {lossy : τ → Bool} (hf : Counting f lossy) (m : ν)
    (evs : List (Ev ν τ)) (a : NodeAttr) :
    ∃ b, evs.foldl (Ev.onNode f m) (some a) = some b ∧ b.count.getD 0 = a.count.getD 0 + nodeEvs m evs ∧
      (a.count ≠ some 0 → b.count ≠ some 0) := by
  induction evs generalizing a with
  | nil => exact ⟨a, rfl, by simp [nodeEvs, Ev.isNode], id⟩
  | cons e l ih =>
    rw [List.foldl_cons]
    cases e with
    | edge u v =>
      have h1 : Ev.onNode f m (some a) (.edge u v) = some a := by
        simp [Ev.onNode]
      have h2 : nodeEvs m (Ev.edge u v :: l) = nodeEvs m l := by simp [nodeEvs, Ev.isNode]
      rw [h1, h2]; exact ih a
    | node n t =>
      by_cases hn : n = m
      · have h1 : Ev.onNode f m (some a) (.node n t) = some (f t (some a)) := by simp [Ev.onNode, hn]
        have h2 : nodeEvs m (Ev.node n t :: l) = nodeEvs m l + 1 := by simp [nodeEvs, Ev.isNode, hn]
        obtain ⟨b, hb1, hb2, hb3⟩ := ih (f t (some a))
        rw [h1, h2]
        refine ⟨b, hb1, ?_, fun _ => hb3 ?_⟩
        · rw [hb2, hf.old]; simp; omega
        · rw [hf.old]; simp
      · have h1 : Ev.onNode f m (some a) (.node n t) = some a := by simp [Ev.onNode, hn]
        have h2 : nodeEvs m (Ev.node n t :: l) = nodeEvs m l := by simp [nodeEvs, Ev.isNode, hn]
        rw [h1, h2]; exact ih a

theorem fold_counting {f : τ → Option NodeAttr → NodeAttr} {lossy : τ → Bool} (hf : Counting f lossy) (m : ν)
    (evs : List (Ev ν τ)) :
    match evs.foldl (Ev.onNode f m) none with
    | none => evs.find? (Ev.mentions m) = none
    | some b => (evs.find? (Ev.mentions m)).isSome = true ∧ b.count ≠ some 0 ∧
        b.count.getD 0 + Ev.lossyFirst lossy (evs.find? (Ev.mentions m)) = nodeEvs m evs := by
  induction evs with
  | nil => simp
  | cons e l ih =>
    rw [List.foldl_cons]
    cases e with
    | edge u v =>
      have h2 : nodeEvs m (Ev.edge u v :: l) = nodeEvs m l := by simp [nodeEvs, Ev.isNode]
      by_cases hm : u = m ∨ v = m
      · have h1 : Ev.onNode f m none (.edge u v) = some default := by simp [Ev.onNode, hm]
        have h3 : (Ev.edge u v :: l).find? (Ev.mentions m) = some (Ev.edge u v : Ev ν τ) := by
          rw [List.find?_cons_of_pos]; simp [Ev.mentions, hm]
        obtain ⟨b, hb1, hb2, hb3⟩ := fold_counting_some hf m l default
        rw [h1, hb1, h3, h2]
        simp only [Option.isSome_some, true_and, Ev.lossyFirst, Nat.add_zero]
        refine ⟨hb3 (by simp [default]), ?_⟩
        rw [hb2]; simp [default]
      · have h1 : Ev.onNode f m none (.edge u v) = none := by simp [Ev.onNode, hm]
        have h3 : (Ev.edge u v :: l).find? (Ev.mentions m) = l.find? (Ev.mentions m) := by
          rw [List.find?_cons_of_neg]; simpa [Ev.mentions] using hm
        rw [h1, h2, h3]; exact ih
    | node n t =>
      by_cases hn : n = m
      · have h1 : Ev.onNode f m none (.node n t) = some (f t none) := by simp [Ev.onNode, hn]
        have h2 : nodeEvs m (Ev.node n t :: l) = nodeEvs m l + 1 := by simp [nodeEvs, Ev.isNode, hn]
        have h3 : (Ev.node n t :: l).find? (Ev.mentions m) = some (Ev.node n t : Ev ν τ) := by
          rw [List.find?_cons_of_pos]; simp [Ev.mentions, hn]
        obtain ⟨b, hb1, hb2, hb3⟩ := fold_counting_some hf m l (f t none)
        rw [h1, hb1, h3, h2]
        simp only [Option.isSome_some, true_and, Ev.lossyFirst]
        rw [hf.new] at hb3 hb2
        refine ⟨hb3 (by split <;> simp), ?_⟩
        rw [hb2]
        split <;> simp <;> omega
      · have h1 : Ev.onNode f m none (.node n t) = none := by simp [Ev.onNode, hn]
        have h2 : nodeEvs m (Ev.node n t :: l) = nodeEvs m l := by simp [nodeEvs, Ev.isNode, hn]
        have h3 : (Ev.node n t :: l).find? (Ev.mentions m) = l.find? (Ev.mentions m) := by
          rw [List.find?_cons_of_neg]; simpa [Ev.mentions] using hn
        rw [h1, h2, h3]; exact ih

/-! ## networkTwoMode -/

/-- The node update: `false` for the first tag, `true` for the second. -/
def twoNode (c r : Bool) (tag1 tag2 : String) (second : Bool) (o : Option NodeAttr) : NodeAttr :=
  if second then tag2Node c r tag2 o else tag1Node c r tag1 o

/-- The updates one record makes. -/
def twoEvs (c1 c2 : List ν) : List (Ev ν Bool) :=
  c1.flatMap (fun x => c2.map (fun y => Ev.edge x y) ++ [Ev.node x false]) ++ c2.map (fun y => Ev.node y true)

theorem twoModeRecord_eq (c w r : Bool) (tag1 tag2 : String) (g : Net ν) (c1 c2 : List ν) :
    twoModeRecord c w r tag1 tag2 g c1 c2 = run w (twoNode c r tag1 tag2) g (twoEvs c1 c2) := by
  unfold twoModeRecord twoEvs
  rw [run_append]
  have h1 : ∀ (l : List ν) (g : Net ν), l.foldl (fun g node2 => g.setNode node2 (tag2Node c r tag2 (g.node? node2))) g =
      run w (twoNode c r tag1 tag2) g (l.map (fun y => Ev.node y true)) := by
    intro l
    induction l with
    | nil => intro g; rfl
    | cons y l ih => intro g; rw [List.foldl_cons, ih, List.map_cons, run_cons]; rfl
  have h2 : ∀ (l : List ν) (g : Net ν), l.foldl (fun g node1 =>
      let g := c2.foldl (fun g node2 => Graph.bumpEdge w g node1 node2) g
      g.setNode node1 (tag1Node c r tag1 (g.node? node1))) g =
      run w (twoNode c r tag1 tag2) g (l.flatMap (fun x => c2.map (fun y => Ev.edge x y) ++ [Ev.node x false])) := by
    intro l
    induction l with
    | nil => intro g; rfl
    | cons x l ih =>
      intro g
      rw [List.foldl_cons, ih, List.flatMap_cons, run_append, run_append, ← foldl_bump]; rfl
  rw [h1]
  congr 1
  exact h2 c1 g

theorem twoModeContents_eq (ident : α → ν) (f : Option (FieldVal α)) : twoModeContents ident f = (vals f).map ident := by
  cases f with
  | none => rfl
  | some v => cases v <;> rfl

theorem countP_twoEvs (d : Bool) (u v : ν) (c1 c2 : List ν) :
    (twoEvs c1 c2).countP (Ev.isEdge d u v) = crossShared d c1 c2 u v := by
  rw [← countP_cross, twoEvs, List.countP_append]
  have h1 : (c2.map (fun y => (Ev.node y true : Ev ν Bool))).countP (Ev.isEdge d u v) = 0 := by
    rw [List.countP_eq_zero]; simp [Ev.isEdge]
  rw [h1, Nat.add_zero]
  induction c1 with
  | nil => rfl
  | cons x l ih =>
    rw [List.flatMap_cons, List.flatMap_cons, List.countP_append, List.countP_append, ih, List.countP_append,
      List.countP_map, List.countP_map]
    congr 1

theorem nodeEvs_twoEvs (m : ν) (c1 c2 : List ν) : nodeEvs m (twoEvs c1 c2) = c1.count m + c2.count m := by
  unfold nodeEvs twoEvs
  rw [List.countP_append]
  congr 1
  · induction c1 with
    | nil => rfl
    | cons x l ih =>
      rw [List.flatMap_cons, List.countP_append, ih, List.countP_append, List.count_cons]
      have : (c2.map (fun y => (Ev.edge x y : Ev ν Bool))).countP
          (Ev.isNode m) = 0 := by
        rw [List.countP_eq_zero]; simp [Ev.isNode]
      rw [this]
      by_cases h : x = m <;> simp [h, Ev.isNode]; omega
  · rw [List.countP_map, List.count_eq_countP]
    congr 1

theorem mentions_twoEvs (m : ν) (c1 c2 : List ν) :
    ((twoEvs c1 c2).find? (Ev.mentions m)).isSome = true ↔ m ∈ c1 ∨ m ∈ c2 := by
  rw [List.find?_isSome]
  constructor
  · rintro ⟨e, he, hm⟩
    simp only [twoEvs, List.mem_append, List.mem_flatMap, List.mem_map, List.mem_singleton] at he
    rcases he with ⟨x, hx, ⟨y, hy, rfl⟩ | rfl⟩ | ⟨y, hy, rfl⟩
    · simp [Ev.mentions] at hm
      rcases hm with rfl | rfl
      · exact Or.inl hx
      · exact Or.inr hy
    · simp [Ev.mentions] at hm; subst hm; exact Or.inl hx
    · simp [Ev.mentions] at hm; subst hm; exact Or.inr hy
  · rintro (h | h)
    · refine ⟨.node m false, ?_, by simp [Ev.mentions]⟩
      simp only [twoEvs, List.mem_append, List.mem_flatMap, List.mem_singleton]
      exact Or.inl ⟨m, h, Or.inr rfl⟩
    · refine ⟨.node m true, ?_, by simp [Ev.mentions]⟩
      simp only [twoEvs, List.mem_append, List.mem_map]
      exact Or.inr ⟨m, h, rfl⟩

/-- Whether the first mention forgets a count: exactly when the second tag has no value. -/
theorem lossy_twoEvs (m : ν) (c1 c2 : List ν) (h : m ∈ c1 ∨ m ∈ c2) :
    Ev.lossyFirst (fun b => !b) ((twoEvs c1 c2).find? (Ev.mentions m)) = if c2 = [] then 1 else 0 := by
  have hn : ∀ (n : ν) (t : Bool) (l : List (Ev ν Bool)), l.find? (Ev.mentions m) = some (.node n t) → n = m := by
    intro n t l hl
    have := List.find?_some hl
    simpa [Ev.mentions] using this
  cases c2 with
  | nil =>
    simp only [List.not_mem_nil, or_false] at h
    unfold twoEvs
    simp only [List.map_nil, List.nil_append, List.append_nil, if_true]
    have : c1.flatMap (fun x => [(Ev.node x false : Ev ν Bool)]) = c1.map (fun x => Ev.node x false) :=
      List.map_eq_flatMap.symm
    rw [this, List.find?_map]
    cases hf : c1.find? (Ev.mentions m ∘ fun x => (Ev.node x false : Ev ν Bool)) with
    | none =>
      rw [List.find?_eq_none] at hf
      exact absurd (by simp [Ev.mentions]) (hf m h)
    | some x => simp [Ev.lossyFirst]
  | cons y c2 =>
    simp only [List.cons_ne_nil, if_false]
    unfold twoEvs
    rw [List.find?_append]
    have key : ∀ l : List ν, ∀ n t, (l.flatMap (fun x => (y :: c2).map (fun y => Ev.edge x y) ++ [Ev.node x false])).find?
        (Ev.mentions m) ≠ some (.node n t) := by
      intro l
      induction l with
      | nil => simp
      | cons x l ih =>
        intro n t
        rw [List.flatMap_cons, List.find?_append, List.find?_append]
        by_cases hx : x = m
        · subst hx
          simp [Ev.mentions]
        · cases hf : ((y :: c2).map (fun y => (Ev.edge x y : Ev ν Bool))).find? (Ev.mentions m) with
          | some e =>
            have := List.mem_of_find?_eq_some hf
            simp only [List.mem_map] at this
            obtain ⟨z, _, rfl⟩ := this
            simp
          | none =>
            have : [(Ev.node x false : Ev ν Bool)].find? (Ev.mentions m) = none := by simp [Ev.mentions, hx]
            rw [this]
            simpa using ih n t
    cases hf : (c1.flatMap (fun x => (y :: c2).map (fun y => Ev.edge x y) ++ [Ev.node x false])).find? (Ev.mentions m) with
    | some e =>
      cases e with
      | edge a b => simp [Ev.lossyFirst]
      | node n t => exact absurd hf (key c1 n t)
    | none =>
      rw [Option.none_or]
      cases hf2 : ((y :: c2).map (fun y => (Ev.node y true : Ev ν Bool))).find? (Ev.mentions m) with
      | none => simp [Ev.lossyFirst]
      | some e =>
        have := List.mem_of_find?_eq_some hf2
        simp only [List.mem_map] at this
        obtain ⟨z, _, rfl⟩ := this
        simp [Ev.lossyFirst]

theorem counting_twoNode (r : Bool) (tag1 tag2 : String) : Counting (twoNode true r tag1 tag2) (fun b => !b) := by
  constructor
  · rintro t ⟨c, ty⟩
    cases t <;> cases c <;> simp [twoNode, tag1Node, tag2Node]
  · intro t
    cases t <;> cases r <;> simp [twoNode, tag1Node, tag2Node]

/-! ## networkMultiMode -/

/-- The updates one record makes. -/
def modeEvs : List (String × List ν) → List (Ev ν String)
  | [] => []
  | c :: rest =>
    c.2.flatMap (fun x => rest.flatMap (fun c' => c'.2.map (fun y => Ev.edge x y)) ++ [Ev.node x c.1]) ++ modeEvs rest

theorem multiModeRecord_eq (c w r : Bool) (g : Net ν) (cs : List (String × List ν)) :
    multiModeRecord c w r g cs = run w (multiModeNode c r) g (modeEvs cs) := by
  induction cs generalizing g with
  | nil => rfl
  | cons p cs ih =>
    rw [multiModeRecord, ih, modeEvs, run_append]
    congr 1
    have h1 : ∀ (x : ν) (l : List (String × List ν)) (g : Net ν),
        l.foldl (fun g vlst2 => vlst2.2.foldl (fun g node2 => Graph.bumpEdge w g x node2) g) g =
        run w (multiModeNode c r) g (l.flatMap (fun c' => c'.2.map (fun y => Ev.edge x y))) := by
      intro x l
      induction l with
      | nil => intro g; rfl
      | cons q l ih2 => intro g; rw [List.foldl_cons, ih2, List.flatMap_cons, run_append, ← foldl_bump]
    have h2 : ∀ (l : List ν) (g : Net ν), l.foldl (fun g node1 =>
        let g := cs.foldl (fun g vlst2 => vlst2.2.foldl (fun g node2 => Graph.bumpEdge w g node1 node2) g) g
        g.setNode node1 (multiModeNode c r p.1 (g.node? node1))) g =
        run w (multiModeNode c r) g
          (l.flatMap (fun x => cs.flatMap (fun c' => c'.2.map (fun y => Ev.edge x y)) ++ [Ev.node x p.1])) := by
      intro l
      induction l with
      | nil => intro g; rfl
      | cons x l ih2 =>
        intro g
        rw [List.foldl_cons, ih2, List.flatMap_cons, run_append, run_append]
        simp only [h1]
        rfl
    exact h2 p.2 g

theorem countP_modeEvs (u v : ν) (cs : List (String × List ν)) :
    (modeEvs cs).countP (Ev.isEdge false u v) = crossSharedAll (cs.map Prod.snd) u v := by
  induction cs with
  | nil => rfl
  | cons p cs ih =>
    rw [modeEvs, List.countP_append, ih, List.map_cons, crossSharedAll]
    congr 1
    have h1 : ∀ x : ν, (cs.flatMap (fun c' => c'.2.map (fun y => (Ev.edge x y : Ev ν String))) ++ [Ev.node x p.1]).countP
        (Ev.isEdge false u v) = (cs.map (fun c' => (c'.2.map (fun y => (x, y))).countP (fun q => sameEdge false q (u, v)))).sum := by
      intro x
      rw [List.countP_append, sum_map_countP]
      simp only [List.countP_map]
      simp [Ev.isEdge]
      rfl
    rw [sum_map_countP]
    simp only [h1]
    -- swap the sums
    have swap : ∀ (l : List ν) (cs : List (String × List ν)) (f : ν → (String × List ν) → Nat),
        (l.map (fun x => (cs.map (fun c' => f x c')).sum)).sum = (cs.map (fun c' => (l.map (fun x => f x c')).sum)).sum := by
      intro l cs f
      induction cs with
      | nil => simp
      | cons c cs ih3 => simp only [List.map_cons, List.sum_cons]; rw [← ih3]; clear ih3; induction l with
        | nil => rfl
        | cons x l ih4 => simp only [List.map_cons, List.sum_cons, ih4]; omega
    rw [swap]
    rw [List.map_map]
    congr 1
    apply List.map_congr_left
    intro c' _
    show _ = crossShared false p.2 c'.2 u v
    rw [← countP_cross, sum_map_countP]

theorem nodeEvs_modeEvs (m : ν) (cs : List (String × List ν)) :
    nodeEvs m (modeEvs cs) = (cs.map (fun c => c.2.count m)).sum := by
  induction cs with
  | nil => rfl
  | cons p cs ih =>
    rw [modeEvs, List.map_cons, List.sum_cons, ← ih]
    unfold nodeEvs
    rw [List.countP_append]
    congr 1
    generalize p.2 = l
    induction l with
    | nil => rfl
    | cons x l ih2 =>
      rw [List.flatMap_cons, List.countP_append, ih2, List.countP_append, List.count_cons]
      have : (cs.flatMap (fun c' => c'.2.map (fun y => (Ev.edge x y : Ev ν String)))).countP
          (Ev.isNode m) = 0 := by
        rw [List.countP_eq_zero]
        intro e he
        simp only [List.mem_flatMap, List.mem_map] at he
        obtain ⟨_, _, _, _, rfl⟩ := he
        simp [Ev.isNode]
      rw [this]
      by_cases h : x = m <;> simp [h, Ev.isNode]; omega

theorem mentions_modeEvs (m : ν) (cs : List (String × List ν)) :
    ((modeEvs cs).find? (Ev.mentions m)).isSome = true ↔ ∃ c ∈ cs, m ∈ c.2 := by
  rw [List.find?_isSome]
  induction cs with
  | nil => simp [modeEvs]
  | cons p cs ih =>
    rw [modeEvs]
    simp only [List.mem_append, or_and_right, exists_or, ih, List.mem_cons, exists_eq_left]
    constructor
    · rintro (⟨e, he, hm⟩ | h)
      · simp only [List.mem_flatMap, List.mem_append, List.mem_map, List.mem_singleton] at he
        obtain ⟨x, hx, ⟨c', hc', y, hy, rfl⟩ | rfl⟩ := he
        · simp [Ev.mentions] at hm
          rcases hm with rfl | rfl
          · exact Or.inl hx
          · exact Or.inr ⟨c', hc', hy⟩
        · simp [Ev.mentions] at hm; subst hm; exact Or.inl hx
      · exact Or.inr h
    · rintro (h | h)
      · left
        refine ⟨.node m p.1, ?_, by simp [Ev.mentions]⟩
        simp only [List.mem_flatMap, List.mem_append, List.mem_singleton]
        exact ⟨m, h, Or.inr rfl⟩
      · exact Or.inr h

/-- Whether the first mention forgets a count: exactly when only one of the tags has values. -/
theorem lossy_modeEvs (m : ν) (cs : List (String × List ν)) (hne : ∀ c ∈ cs, c.2 ≠ []) (h : ∃ c ∈ cs, m ∈ c.2) :
    Ev.lossyFirst (fun _ => true) ((modeEvs cs).find? (Ev.mentions m)) = if cs.length = 1 then 1 else 0 := by
  cases cs with
  | nil => simp at h
  | cons p rest =>
    cases rest with
    | nil =>
      simp only [List.mem_singleton, exists_eq_left] at h
      simp only [List.length_singleton, if_true, modeEvs, List.append_nil, List.flatMap_nil, List.nil_append]
      have : p.2.flatMap (fun x => [(Ev.node x p.1 : Ev ν String)]) = p.2.map (fun x => Ev.node x p.1) :=
        List.map_eq_flatMap.symm
      rw [this, List.find?_map]
      cases hf : p.2.find? (Ev.mentions m ∘ fun x => (Ev.node x p.1 : Ev ν String)) with
      | none =>
        rw [List.find?_eq_none] at hf
        exact absurd (by simp [Ev.mentions]) (hf m h)
      | some x => simp [Ev.lossyFirst]
    | cons q rest =>
      have hlen : (p :: q :: rest).length ≠ 1 := by simp
      rw [if_neg hlen]
      -- the first list is not empty, so an edge to every later value comes before any node update of it
      rw [modeEvs, List.find?_append]
      have hq : q.2 ≠ [] := hne q (by simp)
      obtain ⟨z, zs, hz⟩ := List.exists_cons_of_ne_nil hq
      have hp : p.2 ≠ [] := hne p (by simp)
      have edgesHave : ∀ x y : ν, (∃ c ∈ q :: rest, y ∈ c.2) →
          (Ev.edge x y : Ev ν String) ∈ (q :: rest).flatMap (fun c' => c'.2.map (fun y => Ev.edge x y)) := by
        rintro x y ⟨c, hc, hy⟩
        rw [List.mem_flatMap]; exact ⟨c, hc, List.mem_map_of_mem hy⟩
      have key : ∀ l : List ν, ∀ n t, (l.flatMap (fun x => (q :: rest).flatMap (fun c' => c'.2.map (fun y => Ev.edge x y)) ++
          [Ev.node x p.1])).find? (Ev.mentions m) ≠ some (.node n t) := by
        intro l
        induction l with
        | nil => simp
        | cons x l ih =>
          intro n t
          rw [List.flatMap_cons, List.find?_append, List.find?_append]
          cases hf : ((q :: rest).flatMap (fun c' => c'.2.map (fun y => (Ev.edge x y : Ev ν String)))).find? (Ev.mentions m) with
          | some e =>
            have := List.mem_of_find?_eq_some hf
            simp only [List.mem_flatMap, List.mem_map] at this
            obtain ⟨c, _, w, _, rfl⟩ := this
            simp
          | none =>
            have hx : x ≠ m := by
              rintro rfl
              rw [List.find?_eq_none] at hf
              exact hf _ (edgesHave x z ⟨q, by simp, by simp [hz]⟩) (by simp [Ev.mentions])
            have : [(Ev.node x p.1 : Ev ν String)].find? (Ev.mentions m) = none := by simp [Ev.mentions, hx]
            rw [this]
            simpa using ih n t
      cases hf : (p.2.flatMap (fun x => (q :: rest).flatMap (fun c' => c'.2.map (fun y => Ev.edge x y)) ++
          [Ev.node x p.1])).find? (Ev.mentions m) with
      | some e =>
        cases e with
        | edge a b => simp [Ev.lossyFirst]
        | node n t => exact absurd hf (key p.2 n t)
      | none =>
        exfalso
        rw [List.find?_eq_none] at hf
        obtain ⟨c, hc, hm⟩ := h
        rcases List.mem_cons.1 hc with rfl | hc
        · apply hf (.node m c.1)
          · rw [List.mem_flatMap]; exact ⟨m, hm, by simp⟩
          · simp [Ev.mentions]
        · obtain ⟨x, xs, hx⟩ := List.exists_cons_of_ne_nil hp
          apply hf (.edge x m)
          · rw [List.mem_flatMap]
            exact ⟨x, by simp [hx], List.mem_append_left _ (edgesHave x m ⟨c, hc, hm⟩)⟩
          · simp [Ev.mentions]

theorem counting_multiModeNode (r : Bool) : Counting (multiModeNode true r) (fun _ => true) := by
  constructor
  · rintro t ⟨c, ty⟩
    cases c <;> simp [multiModeNode]
  · intro t
    cases r <;> simp [multiModeNode]

/-- The first mention over all records is the first mention in the first record that has one. -/
theorem find?_records {σ : Type} (evs : ρ → List (Ev ν σ)) (m : ν) (lossy : σ → Bool) (recs : List ρ) (has : ρ → Bool)
    (hhas : ∀ r, has r = true ↔ ((evs r).find? (Ev.mentions m)).isSome = true) :
    (recs.flatMap evs).find? (Ev.mentions m) = (recs.find? has).bind (fun r => (evs r).find? (Ev.mentions m)) := by
  induction recs with
  | nil => rfl
  | cons r recs ih =>
    rw [List.flatMap_cons, List.find?_append, ih, List.find?_cons]
    cases hr : has r with
    | true =>
      have := (hhas r).1 hr
      obtain ⟨e, he⟩ := Option.isSome_iff_exists.1 this
      simp [he]
    | false =>
      have : (evs r).find? (Ev.mentions m) = none := by
        cases h : (evs r).find? (Ev.mentions m) with
        | none => rfl
        | some e => have := (hhas r).2 (by rw [h]; rfl); rw [hr] at this; simp at this
      rw [this]; simp

end Verif.Model.Networks

namespace Verif.Model.Networks
open Verif.Py Verif.Py.Graph
variable {ν τ : Type} [DecidableEq ν]

/-- A counted node has a type. -/
def Typed (o : Option NodeAttr) : Prop := ∀ a, o = some a → a.count.isSome = true → a.type.isSome = true

/-- A node update that leaves the type it found or stores its own tag. -/
def Typing (f : τ → Option NodeAttr → NodeAttr) (tagOf : τ → String) : Prop :=
  ∀ t o, Typed o → (f t o).type = some (tagOf t) ∨ ∃ a s, o = some a ∧ a.type = some s ∧ (f t o).type = some s

theorem fold_typing {f : τ → Option NodeAttr → NodeAttr} {tagOf : τ → String} (hf : Typing f tagOf) (m : ν)
    (evs : List (Ev ν τ)) :
    Typed (evs.foldl (Ev.onNode f m) none) ∧
    ∀ b, evs.foldl (Ev.onNode f m) none = some b →
      (∀ s, b.type = some s → ∃ t, Ev.node m t ∈ evs ∧ s = tagOf t) ∧ (nodeEvs m evs ≠ 0 → b.type.isSome = true) := by
  induction evs using List.reverseRecOn with
  | nil => exact ⟨fun a h => by simp at h, fun b h => by simp at h⟩
  | append_singleton l e ih =>
    obtain ⟨h1, h2⟩ := ih
    rw [List.foldl_append, List.foldl_cons, List.foldl_nil]
    cases e with
    | edge u v =>
      have hc : nodeEvs m (l ++ [Ev.edge u v]) = nodeEvs m l := by simp [nodeEvs, Ev.isNode]
      rw [hc]
      have hev : Ev.onNode f m (l.foldl (Ev.onNode f m) none) (Ev.edge u v) =
        if u = m ∨ v = m then some ((l.foldl (Ev.onNode f m) none).getD default) else l.foldl (Ev.onNode f m) none := rfl
      rw [hev]
      split
      · cases ho : l.foldl (Ev.onNode f m) none with
        | none =>
          have h0 : nodeEvs m l = 0 := by
            apply nodeEvs_of_not_any
            have := onNode_isSome f m l none
            rw [ho] at this
            simp at this
            simpa using this
          refine ⟨fun a ha => ?_, fun b hb => ?_⟩
          · simp at ha; subst ha; simp [default]
          · simp at hb; subst hb; simp [default, h0]
        | some a =>
          obtain ⟨g1, g2⟩ := h2 a ho
          refine ⟨by simpa [ho] using h1, fun b hb => ?_⟩
          simp at hb; subst hb
          refine ⟨fun s hs => ?_, g2⟩
          obtain ⟨t, ht, rfl⟩ := g1 s hs
          exact ⟨t, by simp [ht], rfl⟩
      · refine ⟨h1, fun b hb => ?_⟩
        obtain ⟨g1, g2⟩ := h2 b hb
        refine ⟨fun s hs => ?_, g2⟩
        obtain ⟨t, ht, rfl⟩ := g1 s hs
        exact ⟨t, by simp [ht], rfl⟩
    | node n t =>
      have hev : Ev.onNode f m (l.foldl (Ev.onNode f m) none) (Ev.node n t) =
        if n = m then some (f t (l.foldl (Ev.onNode f m) none)) else l.foldl (Ev.onNode f m) none := rfl
      rw [hev]
      by_cases hn : n = m
      · subst hn
        simp only [if_true]
        have hsome : (f t (l.foldl (Ev.onNode f n) none)).type.isSome = true := by
          rcases hf t _ h1 with h | ⟨a, s, _, _, h⟩ <;> rw [h] <;> rfl
        refine ⟨fun a ha _ => ?_, fun b hb => ⟨fun s hs => ?_, fun _ => ?_⟩⟩
        · simp at ha; subst ha; exact hsome
        · simp at hb; subst hb
          rcases hf t _ h1 with h | ⟨a, s', ho, hs', h⟩
          · rw [h] at hs; simp at hs; subst hs; exact ⟨t, by simp, rfl⟩
          · rw [h] at hs; simp at hs; subst hs
            obtain ⟨t', ht', rfl⟩ := (h2 a ho).1 s' hs'
            exact ⟨t', by simp [ht'], rfl⟩
        · simp at hb; subst hb; exact hsome
      · simp only [hn, if_false]
        have hc : nodeEvs m (l ++ [Ev.node n t]) = nodeEvs m l := by simp [nodeEvs, Ev.isNode, hn]
        rw [hc]
        refine ⟨h1, fun b hb => ?_⟩
        obtain ⟨g1, g2⟩ := h2 b hb
        refine ⟨fun s hs => ?_, g2⟩
        obtain ⟨t, ht, rfl⟩ := g1 s hs
        exact ⟨t, by simp [ht], rfl⟩

theorem typing_twoNode (c : Bool) (tag1 tag2 : String) :
    Typing (twoNode c true tag1 tag2) (fun b => if b then tag2 else tag1) := by
  intro t o ho
  cases o with
  | none => left; cases t <;> cases c <;> simp [twoNode, tag1Node, tag2Node]
  | some a =>
    obtain ⟨ct, ty⟩ := a
    have := ho _ rfl
    cases t <;> cases c <;> cases ct <;> cases ty <;> simp_all [twoNode, tag1Node, tag2Node]

theorem typing_multiModeNode : Typing (multiModeNode true true) (fun t => t) := by
  intro t o ho
  cases o with
  | none => left; simp [multiModeNode]
  | some a =>
    obtain ⟨ct, ty⟩ := a
    have := ho _ rfl
    cases ct <;> cases ty <;> simp_all [multiModeNode]

end Verif.Model.Networks
