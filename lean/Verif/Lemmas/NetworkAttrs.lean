import Verif.Model.NetworkAttrs
import Verif.Spec.NetworkAttrs
import Verif.Lemmas.Networks2

/-! Lemmas for the options `edgeAttribute` and `nodeAttribute`. -/
set_option autoImplicit false
set_option linter.unusedSectionVars false
set_option linter.unusedSimpArgs false
namespace Verif.Model.NetworkAttrs
open Verif.Py Verif.Spec Verif.Spec.NetworkAttrs Verif.Model.Series
open Verif.Model.Networks hiding networkMultiLevel networkOneMode

variable {ρ α ν σ τ G : Type} [DecidableEq ν] [DecidableEq σ]

theorem attrVals_ok {str : α → σ} {iter : α → Option (List σ)} {f : Option (FieldVal α)} {l : List σ}
    (h : Gives str iter f l) : attrVals str iter f = .ok l := by
  cases h with
  | missing => rfl
  | list vs => rfl
  | single v l h => simp [attrVals, h]

theorem attrVals_error {str : α → σ} {iter : α → Option (List σ)} {f : Option (FieldVal α)} (h : Refuses iter f) :
    attrVals str iter f = .error .typeError := by
  obtain ⟨v, rfl, hv⟩ := h
  simp [attrVals, hv]

/-! ## Nodes -/

/-- The lists of the nodes after one record. -/
def noteRecord (vals : List σ) (s : Attribs ν σ) (names : List ν) : Attribs ν σ :=
  names.foldl (noteNode (some s.lists.length)) { s with lists := s.lists ++ [vals] }

/-- The lists of the nodes after several records. -/
def noteRecords (vs : ρ → List σ) (names : ρ → List ν) (s : Attribs ν σ) (recs : List ρ) : Attribs ν σ :=
  recs.foldl (fun s r => noteRecord (vs r) s (names r)) s

/-- The loop over the values of a record, for the graph alone. -/
def graphLoop (edge : G → ν → ν → Except Err G) (count : G → ν → G) : G → List ν → Except Err G
  | g, [] => .ok g
  | g, node1 :: rest =>
    match edgesFrom edge node1 g rest with
    | .error e => .error e
    | .ok g => graphLoop edge count (count g node1) rest

theorem levelLoop_eq (edge : G → ν → ν → Except Err G) (count : G → ν → G) (addr : Option Nat) (g : G) (s : Attribs ν σ)
    (l : List ν) : levelLoop edge count addr g s l =
      (graphLoop edge count g l).map (fun g => (g, l.foldl (noteNode addr) s)) := by
  induction l generalizing g s with
  | nil => rfl
  | cons x l ih =>
    rw [levelLoop, graphLoop]
    cases edgesFrom edge x g l with
    | error e => rfl
    | ok g => exact ih _ _

theorem noteNode_none (s : Attribs ν σ) (l : List ν) : l.foldl (noteNode (none : Option Nat)) s = s := by
  induction l generalizing s with
  | nil => rfl
  | cons x l ih => exact ih s

/-! ## Without a tag for edges -/

theorem edgesFrom_ok (f : G → ν → ν → G) (x : ν) (g : G) (l : List ν) :
    edgesFrom (fun g u v => .ok (f g u v)) x g l = .ok (l.foldl (fun g y => f g x y) g) := by
  induction l generalizing g with
  | nil => rfl
  | cons y l ih => exact ih _

theorem graphLoop_plain (c w : Bool) (g : Net ν) (l : List ν) :
    graphLoop (fun g u v => .ok (Graph.bumpEdge w g u v)) (countNode c) g l = .ok (multiLevelRecord c w g l) := by
  induction l generalizing g with
  | nil => rfl
  | cons x l ih =>
    rw [graphLoop, edgesFrom_ok]
    exact ih _

/-- The lists of the nodes with or without a tag for them. -/
def noteAll (nodeAttribute : Option τ) (vs : ρ → List σ) (names : ρ → List ν) (s : Attribs ν σ) (recs : List ρ) :
    Attribs ν σ := if nodeAttribute.isSome then noteRecords vs names s recs else s

theorem plain_ok (nodeCount edgeWeight : Bool) (ident : α → ν) (str : α → σ) (iter : α → Option (List σ))
    (field : ρ → τ → Option (FieldVal α)) (modes : List τ) (nodeAttribute : Option τ) (vs : ρ → List σ) (recs : List ρ)
    (h : ∀ t, nodeAttribute = some t → ∀ r ∈ recs, Gives str iter (field r t) (vs r)) (g : Net ν) (s : Attribs ν σ) :
    networkMultiLevel nodeCount edgeWeight ident str iter field modes nodeAttribute (g, s) recs =
      .ok (recs.foldl (fun g r => multiLevelRecord nodeCount edgeWeight g (contentsOf ident field modes r)) g,
        noteAll nodeAttribute vs (contentsOf ident field modes) s recs) := by
  induction recs generalizing g s with
  | nil => unfold networkMultiLevel noteAll noteRecords; simp
  | cons r recs ih =>
    have ih' := ih (fun t ht r' hr' => h t ht r' (List.mem_cons_of_mem _ hr'))
    unfold networkMultiLevel
    cases nodeAttribute with
    | none =>
      simp only [newVals, levelLoop_eq, graphLoop_plain, Except.map, noteNode_none]
      rw [ih']; rfl
    | some t =>
      simp only [newVals, attrVals_ok (h t rfl r List.mem_cons_self), levelLoop_eq, graphLoop_plain, Except.map]
      rw [ih']; rfl

theorem plain_error (nodeCount edgeWeight : Bool) (ident : α → ν) (str : α → σ) (iter : α → Option (List σ))
    (field : ρ → τ → Option (FieldVal α)) (modes : List τ) (t : τ) (recs : List ρ)
    (h : ∃ r ∈ recs, Refuses iter (field r t)) (g : Net ν) (s : Attribs ν σ) :
    networkMultiLevel nodeCount edgeWeight ident str iter field modes (some t) (g, s) recs = .error .typeError := by
  induction recs generalizing g s with
  | nil => simp at h
  | cons r recs ih =>
    unfold networkMultiLevel
    cases hv : attrVals str iter (field r t) with
    | error e =>
      have : e = .typeError := by
        unfold attrVals at hv
        split at hv
        · simp at hv
        · simp at hv
        · split at hv <;> simp at hv; exact hv.symm
      simp [newVals, hv, this]
    | ok l =>
      simp only [newVals, hv, levelLoop_eq, graphLoop_plain, Except.map]
      apply ih
      obtain ⟨r', hr', hx⟩ := h
      rcases List.mem_cons.1 hr' with rfl | hr'
      · rw [attrVals_error hx] at hv; simp at hv
      · exact ⟨r', hr', hx⟩

/-! ## With a tag for edges -/

/-- An update that cannot count an edge twice. -/
def applyE (w : Bool) (f : τ → Option NodeAttr → NodeAttr) (g : MultiNet ν σ) : MultiGraph.Ev ν σ τ → Except Err (MultiNet ν σ)
  | .edge u v k => bumpKey w g u v k
  | .node n t => .ok (g.setNode n (f t (g.node? n)))

/-- Several such updates. -/
def runE (w : Bool) (f : τ → Option NodeAttr → NodeAttr) : MultiNet ν σ → List (MultiGraph.Ev ν σ τ) → Except Err (MultiNet ν σ)
  | g, [] => .ok g
  | g, e :: l =>
    match applyE w f g e with
    | .error e => .error e
    | .ok g => runE w f g l

theorem runE_append (w : Bool) (f : τ → Option NodeAttr → NodeAttr) (g : MultiNet ν σ) (l l' : List (MultiGraph.Ev ν σ τ)) :
    runE w f g (l ++ l') = match runE w f g l with
      | .error e => .error e
      | .ok g => runE w f g l' := by
  induction l generalizing g with
  | nil => rfl
  | cons e l ih =>
    rw [List.cons_append, runE, runE]
    cases applyE w f g e with
    | error e => rfl
    | ok g => exact ih g

theorem runE_spec (w d : Bool) (f : τ → Option NodeAttr → NodeAttr) (evs : List (MultiGraph.Ev ν σ τ)) :
    (w = false ∨ (∀ u v k, evs.countP (MultiGraph.Ev.isEdge d u v k) ≤ 1) →
      runE w f (MultiGraph.empty d) evs = .ok (MultiGraph.run w f (MultiGraph.empty d) evs)) ∧
    (w = true → (∃ u v k, 2 ≤ evs.countP (MultiGraph.Ev.isEdge d u v k)) →
      runE w f (MultiGraph.empty d) evs = .error .valueError) := by
  induction evs using List.reverseRecOn with
  | nil => exact ⟨fun _ => rfl, fun _ ⟨u, v, k, h⟩ => by simp at h⟩
  | append_singleton l e ih =>
    obtain ⟨i1, i2⟩ := ih
    obtain ⟨-, h2, h3, -⟩ := MultiGraph.run_spec w d f l
    have hstep : ∀ a b c, e = .edge a b c → runE w f (MultiGraph.run w f (MultiGraph.empty d) l) [e] =
        if w = true ∧ l.countP (MultiGraph.Ev.isEdge d a b c) ≠ 0 then .error .valueError
        else .ok (MultiGraph.run w f (MultiGraph.empty d) (l ++ [e])) := by
      rintro a b c rfl
      rw [MultiGraph.run_append]
      simp only [runE, applyE, bumpKey, h3, MultiGraph.run_cons, MultiGraph.run_nil, MultiGraph.apply, MultiGraph.bump,
        Graph.weightOf]
      by_cases h0 : l.countP (MultiGraph.Ev.isEdge d a b c) = 0
      · simp [h0]
      · cases w <;> simp [h0]
    have hnode : ∀ n t, e = .node n t → runE w f (MultiGraph.run w f (MultiGraph.empty d) l) [e] =
        .ok (MultiGraph.run w f (MultiGraph.empty d) (l ++ [e])) := by
      rintro n t rfl
      rw [MultiGraph.run_append]; rfl
    constructor
    · intro hc
      have hl : w = false ∨ (∀ u v k, l.countP (MultiGraph.Ev.isEdge d u v k) ≤ 1) := by
        rcases hc with hc | hc
        · exact Or.inl hc
        · right; intro u v k; have := hc u v k; rw [List.countP_append] at this; omega
      rw [runE_append, i1 hl]
      simp only
      cases e with
      | node n t => exact hnode n t rfl
      | edge a b c =>
        rw [hstep a b c rfl, if_neg]
        rintro ⟨hw, h0⟩
        rcases hc with hc | hc
        · rw [hw] at hc; simp at hc
        · have := hc a b c
          rw [List.countP_append, List.countP_cons, List.countP_nil] at this
          simp only [MultiGraph.Ev.isEdge, MultiGraph.same_refl, if_true] at this
          omega
    · rintro hw ⟨u, v, k, hc⟩
      by_cases hex : ∃ u v k, 2 ≤ l.countP (MultiGraph.Ev.isEdge d u v k)
      · rw [runE_append, i2 hw hex]
      · have hl : ∀ u v k, l.countP (MultiGraph.Ev.isEdge d u v k) ≤ 1 := by
          intro u v k
          by_contra h
          exact hex ⟨u, v, k, by omega⟩
        rw [runE_append, i1 (Or.inr hl)]
        simp only
        have hk := hl u v k
        rw [List.countP_append, List.countP_cons, List.countP_nil] at hc
        cases e with
        | node n t => simp [MultiGraph.Ev.isEdge] at hc; omega
        | edge a b c =>
          rw [hstep a b c rfl, if_pos]
          refine ⟨hw, ?_⟩
          by_cases hs : MultiGraph.same d (a, b, c) (u, v, k) = true
          · have heq : l.countP (MultiGraph.Ev.isEdge d a b c) = l.countP (MultiGraph.Ev.isEdge d u v k) := by
              apply List.countP_congr
              intro e' _
              cases e' with
              | node n t => simp [MultiGraph.Ev.isEdge]
              | edge x y z =>
                simp only [MultiGraph.Ev.isEdge]
                exact ⟨fun h => MultiGraph.same_trans h hs, fun h => MultiGraph.same_trans h (MultiGraph.same_symm hs)⟩
            rw [heq]
            simp only [MultiGraph.Ev.isEdge, hs, if_true] at hc
            omega
          · simp only [MultiGraph.Ev.isEdge, hs] at hc
            simp at hc; omega

/-- The updates one record makes. -/
def keyEvs (ks : List σ) : List ν → List (MultiGraph.Ev ν σ Unit)
  | [] => []
  | x :: rest => rest.flatMap (fun y => ks.map (fun k => .edge x y k)) ++ .node x () :: keyEvs ks rest

theorem multi_setNode_setNode {A : Type} (g : MultiGraph ν σ A) (n : ν) (a b : A) :
    (g.setNode n a).setNode n b = g.setNode n b := by
  unfold MultiGraph.setNode
  congr 1
  generalize g.nodes = d
  induction d with
  | nil => simp [Dict.set]
  | cons p d ih =>
    obtain ⟨k, w⟩ := p
    by_cases h : k = n <;> simp [Dict.set, h, ih]

theorem multi_setNode_self {A : Type} (g : MultiGraph ν σ A) (n : ν) (a : A) (h : g.node? n = some a) : g.setNode n a = g := by
  unfold MultiGraph.setNode
  unfold MultiGraph.node? at h
  cases g with
  | mk dd nodes edges =>
    simp only [MultiGraph.mk.injEq, true_and, and_true] at *
    induction nodes with
    | nil => simp at h
    | cons p d ih =>
      obtain ⟨k, w⟩ := p
      by_cases hk : k = n
      · subst hk; simp [Dict.get?] at h; subst h; simp [Dict.set]
      · simp [Dict.get?, hk] at h; simp [Dict.set, hk, ih h]

theorem countMulti_eq (c : Bool) (g : MultiNet ν σ) (n : ν) : countMulti c g n = g.setNode n (levelNode c () (g.node? n)) := by
  unfold countMulti levelNode
  cases h : g.node? n with
  | none =>
    have ht : g.touch n = g.setNode n default := by simp [MultiGraph.touch, h]
    have hn : (g.setNode n default).node? n = some default := by simp [MultiGraph.node?_setNode]
    rw [ht]
    cases c
    · simp
    · simp [hn, multi_setNode_setNode]
  | some a =>
    have ht : g.touch n = g := by simp [MultiGraph.touch, h]
    rw [ht]
    cases c
    · simp [multi_setNode_self g n a h]
    · simp [h]

theorem bumpKeys_eq (w : Bool) (f : Unit → Option NodeAttr → NodeAttr) (ks : List σ) (g : MultiNet ν σ) (u v : ν) :
    bumpKeys w ks g u v = runE w f g (ks.map (fun k => .edge u v k)) := by
  induction ks generalizing g with
  | nil => rfl
  | cons k ks ih =>
    simp only [bumpKeys, List.map_cons, runE, applyE]
    cases bumpKey w g u v k with
    | error e => rfl
    | ok g => exact ih g

theorem edgesFrom_keys (w : Bool) (f : Unit → Option NodeAttr → NodeAttr) (ks : List σ) (x : ν) (g : MultiNet ν σ) (l : List ν) :
    edgesFrom (bumpKeys w ks) x g l = runE w f g (l.flatMap (fun y => ks.map (fun k => .edge x y k))) := by
  induction l generalizing g with
  | nil => rfl
  | cons y l ih =>
    rw [edgesFrom, List.flatMap_cons, runE_append, ← bumpKeys_eq]
    cases bumpKeys w ks g x y with
    | error e => rfl
    | ok g => exact ih g

theorem graphLoop_keys (c w : Bool) (ks : List σ) (g : MultiNet ν σ) (l : List ν) :
    graphLoop (bumpKeys w ks) (countMulti c) g l = runE w (levelNode c) g (keyEvs ks l) := by
  induction l generalizing g with
  | nil => rfl
  | cons x l ih =>
    rw [graphLoop, keyEvs, runE_append, ← edgesFrom_keys]
    cases edgesFrom (bumpKeys w ks) x g l with
    | error e => rfl
    | ok g =>
      simp only [runE, applyE]
      rw [countMulti_eq]; exact ih _

theorem keyed_ok (nodeCount edgeWeight : Bool) (ident : α → ν) (str : α → σ) (iter : α → Option (List σ))
    (field : ρ → τ → Option (FieldVal α)) (modes : List τ) (edgeAttribute : τ) (nodeAttribute : Option τ) (ks vs : ρ → List σ)
    (recs : List ρ) (hk : ∀ r ∈ recs, Gives str iter (field r edgeAttribute) (ks r))
    (h : ∀ t, nodeAttribute = some t → ∀ r ∈ recs, Gives str iter (field r t) (vs r)) (g : MultiNet ν σ) (s : Attribs ν σ) :
    networkMultiLevelKeyed nodeCount edgeWeight ident str iter field modes edgeAttribute nodeAttribute (g, s) recs =
      (runE edgeWeight (levelNode nodeCount) g (recs.flatMap (fun r => keyEvs (ks r) (contentsOf ident field modes r)))).map
        (fun g => (g, noteAll nodeAttribute vs (contentsOf ident field modes) s recs)) := by
  induction recs generalizing g s with
  | nil => unfold networkMultiLevelKeyed noteAll noteRecords; simp [runE, Except.map]
  | cons r recs ih =>
    have ih' := ih (fun r' hr' => hk r' (List.mem_cons_of_mem _ hr')) (fun t ht r' hr' => h t ht r' (List.mem_cons_of_mem _ hr'))
    unfold networkMultiLevelKeyed
    rw [List.flatMap_cons, runE_append]
    cases nodeAttribute with
    | none =>
      simp only [attrVals_ok (hk r List.mem_cons_self), newVals, levelLoop_eq, graphLoop_keys, noteNode_none]
      cases runE edgeWeight (levelNode nodeCount) g (keyEvs (ks r) (contentsOf ident field modes r)) with
      | error e => rfl
      | ok g' => simp only [Except.map]; rw [ih']; rfl
    | some t =>
      simp only [attrVals_ok (hk r List.mem_cons_self), newVals, attrVals_ok (h t rfl r List.mem_cons_self), levelLoop_eq,
        graphLoop_keys]
      cases runE edgeWeight (levelNode nodeCount) g (keyEvs (ks r) (contentsOf ident field modes r)) with
      | error e => rfl
      | ok g' => simp only [Except.map]; rw [ih']; rfl

theorem attrVals_error_eq {str : α → σ} {iter : α → Option (List σ)} {f : Option (FieldVal α)} {e : Err}
    (h : attrVals str iter f = .error e) : e = .typeError := by
  unfold attrVals at h
  split at h
  · simp at h
  · simp at h
  · split at h <;> simp at h; exact h.symm

theorem keyed_error (nodeCount edgeWeight : Bool) (ident : α → ν) (str : α → σ) (iter : α → Option (List σ))
    (field : ρ → τ → Option (FieldVal α)) (modes : List τ) (edgeAttribute : τ) (nodeAttribute : Option τ) (recs : List ρ)
    (h : ∃ r ∈ recs, Refuses iter (field r edgeAttribute)) (g : MultiNet ν σ) (s : Attribs ν σ) :
    ∃ e, networkMultiLevelKeyed nodeCount edgeWeight ident str iter field modes edgeAttribute nodeAttribute (g, s) recs =
      .error e := by
  induction recs generalizing g s with
  | nil => simp at h
  | cons r recs ih =>
    unfold networkMultiLevelKeyed
    cases hv : attrVals str iter (field r edgeAttribute) with
    | error e => exact ⟨e, rfl⟩
    | ok l =>
      dsimp only
      cases hn : newVals str iter field nodeAttribute r s with
      | error e => exact ⟨e, rfl⟩
      | ok p =>
        obtain ⟨s', addr⟩ := p
        dsimp only
        cases hl : levelLoop (bumpKeys edgeWeight l) (countMulti nodeCount) addr g s' (contentsOf ident field modes r) with
        | error e => exact ⟨e, rfl⟩
        | ok q =>
          obtain ⟨g', s''⟩ := q
          apply ih
          obtain ⟨r', hr', hx⟩ := h
          rcases List.mem_cons.1 hr' with rfl | hr'
          · rw [attrVals_error hx] at hv; simp at hv
          · exact ⟨r', hr', hx⟩

theorem countP_keys (d : Bool) (x y u v : ν) (k : σ) (ks : List σ) :
    (ks.map (fun k' => (MultiGraph.Ev.edge x y k' : MultiGraph.Ev ν σ τ))).countP (MultiGraph.Ev.isEdge d u v k) =
      if sameEdge d (x, y) (u, v) = true then ks.count k else 0 := by
  rw [List.countP_map, List.count_eq_countP]
  by_cases h : sameEdge d (x, y) (u, v) = true
  · rw [if_pos h]
    apply List.countP_congr
    intro k' _
    simp [MultiGraph.Ev.isEdge, MultiGraph.same, h]
  · rw [if_neg h, List.countP_eq_zero]
    intro k' _
    simp [MultiGraph.Ev.isEdge, MultiGraph.same, h]

theorem countP_keys_star (d : Bool) (x u v : ν) (k : σ) (ks : List σ) (l : List ν) :
    (l.flatMap (fun y => ks.map (fun k' => (MultiGraph.Ev.edge x y k' : MultiGraph.Ev ν σ τ)))).countP
      (MultiGraph.Ev.isEdge d u v k) = (l.map (fun y => (x, y))).countP (fun p => sameEdge d p (u, v)) * ks.count k := by
  induction l with
  | nil => simp
  | cons y l ih =>
    rw [List.flatMap_cons, List.countP_append, ih, countP_keys, List.map_cons, List.countP_cons, Nat.add_mul]
    by_cases h : sameEdge d (x, y) (u, v) = true <;> simp [h]
    omega

theorem countP_keyEvs (u v : ν) (k : σ) (ks : List σ) (l : List ν) :
    (keyEvs ks l).countP (MultiGraph.Ev.isEdge false u v k) = pairsShared l u v * ks.count k := by
  rw [← countP_pairs]
  induction l with
  | nil => simp [keyEvs, pairs]
  | cons x l ih =>
    rw [keyEvs, pairs, List.countP_append, List.countP_cons, ih, countP_keys_star, List.countP_append, Nat.add_mul]
    simp [MultiGraph.Ev.isEdge]

theorem nodeEvs_append (m : ν) (l l' : List (Graph.Ev ν τ)) : nodeEvs m (l ++ l') = nodeEvs m l + nodeEvs m l' := by
  unfold nodeEvs; rw [List.countP_append]

theorem nodeEvs_edges (m x : ν) (ks : List σ) (l : List ν) :
    nodeEvs m ((l.flatMap (fun y => ks.map (fun k' => (MultiGraph.Ev.edge x y k' : MultiGraph.Ev ν σ τ)))).map
      MultiGraph.Ev.plain) = 0 := by
  unfold nodeEvs
  rw [List.countP_eq_zero]
  intro e he
  simp only [List.mem_map, List.mem_flatMap] at he
  obtain ⟨e', ⟨y, hy, k, hk, rfl⟩, rfl⟩ := he
  simp [MultiGraph.Ev.plain, Graph.Ev.isNode]

theorem nodeEvs_keyEvs (m : ν) (ks : List σ) (l : List ν) :
    nodeEvs m ((keyEvs ks l).map MultiGraph.Ev.plain) = l.count m := by
  induction l with
  | nil => rfl
  | cons x l ih =>
    rw [keyEvs, List.map_append, nodeEvs_append, nodeEvs_edges, List.map_cons, Nat.zero_add]
    have : nodeEvs m (MultiGraph.Ev.plain (.node x () : MultiGraph.Ev ν σ Unit) :: (keyEvs ks l).map MultiGraph.Ev.plain) =
        (if x = m then 1 else 0) + nodeEvs m ((keyEvs ks l).map MultiGraph.Ev.plain) := by
      unfold nodeEvs
      rw [List.countP_cons]
      simp [MultiGraph.Ev.plain, Graph.Ev.isNode]; omega
    rw [this, ih, List.count_cons]
    by_cases h : x = m <;> simp [h]; omega

theorem mentions_keyEvs (m : ν) (ks : List σ) (l : List ν) :
    (∃ e ∈ (keyEvs ks l).map MultiGraph.Ev.plain, e.mentions m = true) ↔ m ∈ l := by
  induction l with
  | nil => simp [keyEvs]
  | cons x l ih =>
    rw [keyEvs, List.map_append, List.map_cons]
    simp only [List.mem_append, List.mem_cons, or_and_right, exists_or, exists_eq_left, ih]
    constructor
    · rintro (⟨e, he, h⟩ | h | h)
      · simp only [List.mem_map, List.mem_flatMap] at he
        obtain ⟨e', ⟨y, hy, k, hk, rfl⟩, rfl⟩ := he
        simp [MultiGraph.Ev.plain, Graph.Ev.mentions] at h
        rcases h with rfl | rfl
        · exact Or.inl rfl
        · exact Or.inr hy
      · simp [MultiGraph.Ev.plain, Graph.Ev.mentions] at h; exact Or.inl h.symm
      · exact Or.inr h
    · rintro (rfl | h)
      · right; left; simp [MultiGraph.Ev.plain, Graph.Ev.mentions]
      · exact Or.inr (Or.inr h)

/-! ## The lists the nodes share -/

theorem mem_appendNew (cur vals : List σ) (v : σ) : v ∈ appendNew cur vals ↔ v ∈ cur ∨ v ∈ vals := by
  unfold appendNew
  induction vals generalizing cur with
  | nil => simp
  | cons w vals ih =>
    rw [List.foldl_cons, ih]
    by_cases hw : w ∈ cur
    · simp only [hw, if_true, List.mem_cons]
      constructor
      · rintro (h | h)
        · exact Or.inl h
        · exact Or.inr (Or.inr h)
      · rintro (h | rfl | h)
        · exact Or.inl h
        · exact Or.inl hw
        · exact Or.inr h
    · simp only [hw, if_false, List.mem_append, List.mem_singleton, List.mem_cons, or_assoc, List.not_mem_nil, false_or]

theorem appendNew_prefix (cur vals : List σ) : ∃ l, appendNew cur vals = cur ++ l := by
  unfold appendNew
  induction vals generalizing cur with
  | nil => exact ⟨[], by simp⟩
  | cons w vals ih =>
    rw [List.foldl_cons]
    by_cases hw : w ∈ cur
    · simp only [hw, if_true]; exact ih cur
    · simp only [hw, if_false]
      obtain ⟨l, hl⟩ := ih (cur ++ [w])
      exact ⟨w :: l, by rw [hl]; simp⟩

theorem nodup_appendNew (cur vals : List σ) (h : cur.Nodup) : (appendNew cur vals).Nodup := by
  unfold appendNew
  induction vals generalizing cur with
  | nil => exact h
  | cons w vals ih =>
    rw [List.foldl_cons]
    by_cases hw : w ∈ cur
    · simp only [hw, if_true]; exact ih cur h
    · simp only [hw, if_false]
      apply ih
      rw [List.nodup_append]
      refine ⟨h, by simp, ?_⟩
      intro a ha b hb
      simp only [List.mem_singleton] at hb
      subst hb
      rintro rfl
      exact hw ha

theorem appendNew_of_subset (cur vals : List σ) (h : ∀ v ∈ vals, v ∈ cur) : appendNew cur vals = cur := by
  unfold appendNew
  induction vals with
  | nil => rfl
  | cons w vals ih =>
    rw [List.foldl_cons, if_pos (h w List.mem_cons_self)]
    exact ih (fun v hv => h v (List.mem_cons_of_mem _ hv))

theorem noteFold (s : Attribs ν σ) (vals : List σ) (a : Nat) (ha : s.lists.length = a)
    (href : ∀ m i, s.ref.get? m = some i → i < a) (l : List ν) :
    let s' := l.foldl (noteNode (some a)) { s with lists := s.lists ++ [vals] }
    s'.lists.length = a + 1 ∧
    (∀ n, s'.ref.get? n = if (s.ref.get? n).isSome then s.ref.get? n else if n ∈ l then some a else none) ∧
    s'.lists.getD a [] = vals ∧
    (∀ i, i < a → ∀ v, v ∈ s'.lists.getD i [] ↔ v ∈ s.lists.getD i [] ∨ (v ∈ vals ∧ ∃ m ∈ l, s.ref.get? m = some i)) ∧
    (∀ i, i < a → ∃ t, s'.lists.getD i [] = s.lists.getD i [] ++ t) ∧
    (∀ i, i < a → (s.lists.getD i []).Nodup → (s'.lists.getD i []).Nodup) := by
  induction l using List.reverseRecOn with
  | nil =>
    simp only [List.foldl_nil]
    refine ⟨by simp [ha], fun n => ?_, ?_, fun i hi v => ?_, fun i hi => ⟨[], ?_⟩, fun i hi h => ?_⟩
    · cases s.ref.get? n <;> simp
    · rw [List.getD_eq_getElem?_getD, List.getElem?_append_right (by omega)]; simp [ha]
    · rw [List.getD_eq_getElem?_getD, List.getElem?_append_left (by omega), ← List.getD_eq_getElem?_getD]; simp
    · rw [List.getD_eq_getElem?_getD, List.getElem?_append_left (by omega), ← List.getD_eq_getElem?_getD]; simp
    · rw [List.getD_eq_getElem?_getD, List.getElem?_append_left (by omega), ← List.getD_eq_getElem?_getD]; exact h
  | append_singleton l x ih =>
    obtain ⟨i1, i2, i3, i4, i5, i6⟩ := ih
    simp only [List.foldl_append, List.foldl_cons, List.foldl_nil]
    generalize l.foldl (noteNode (some a)) { s with lists := s.lists ++ [vals] } = s1 at i1 i2 i3 i4 i5 i6
    have hx := i2 x
    cases hs : s.ref.get? x with
    | none =>
      rw [hs] at hx
      have keep : ∀ i, (∃ m ∈ l ++ [x], s.ref.get? m = some i) ↔ ∃ m ∈ l, s.ref.get? m = some i := by
        intro i
        simp only [List.mem_append, List.mem_singleton, or_and_right, exists_or, exists_eq_left, hs, reduceCtorEq, or_false]
      by_cases hl : x ∈ l
      · have hx1 : s1.ref.get? x = some a := by rw [hx]; simp [hl]
        have : noteNode (some a) s1 x = s1 := by
          have h2 : s1.lists.set a (s1.lists.getD a []) = s1.lists := by
            apply List.ext_getElem?
            intro i
            rw [List.getElem?_set]
            split
            · rename_i h; subst h
              rw [if_pos (by omega), List.getD_eq_getElem?_getD, List.getElem?_eq_getElem (by omega)]; rfl
            · rfl
          unfold noteNode
          simp only [hx1]
          rw [appendNew_of_subset _ _ (fun v hv => hv), h2]
        rw [this]
        refine ⟨i1, fun n => ?_, i3, fun i hi v => ?_, i5, i6⟩
        · rw [i2 n]
          simp only [List.mem_append, List.mem_singleton]
          by_cases hn : n = x
          · subst hn; simp [hl]
          · simp [hn]
        · rw [i4 i hi v, keep]
      · have hx1 : s1.ref.get? x = none := by rw [hx]; simp [hl]
        have : noteNode (some a) s1 x = { s1 with ref := s1.ref.set x a } := by
          unfold noteNode; simp only [hx1]
        rw [this]
        refine ⟨i1, fun n => ?_, i3, fun i hi v => ?_, i5, i6⟩
        · simp only [Dict.get?_set, List.mem_append, List.mem_singleton]
          by_cases hn : x = n
          · subst hn; simp [hs]
          · rw [if_neg hn, i2 n]
            simp [show n ≠ x from fun h => hn h.symm]
        · rw [i4 i hi v, keep]
    | some j =>
      have hj := href x j hs
      have hx1 : s1.ref.get? x = some j := by rw [hx, hs]; simp
      have : noteNode (some a) s1 x = { s1 with lists := s1.lists.set j (appendNew (s1.lists.getD j []) vals) } := by
        unfold noteNode; simp only [hx1, i3]
      rw [this]
      have getS : ∀ i, (s1.lists.set j (appendNew (s1.lists.getD j []) vals)).getD i [] =
          if i = j then appendNew (s1.lists.getD j []) vals else s1.lists.getD i [] := by
        intro i
        rw [List.getD_eq_getElem?_getD, List.getElem?_set]
        by_cases h : j = i
        · subst h; rw [if_pos rfl, if_pos (by omega), if_pos rfl]; rfl
        · rw [if_neg h, if_neg (fun h' => h h'.symm), List.getD_eq_getElem?_getD]
      refine ⟨by simp [i1], fun n => ?_, ?_, fun i hi v => ?_, fun i hi => ?_, fun i hi h => ?_⟩
      · rw [i2 n]
        simp only [List.mem_append, List.mem_singleton]
        by_cases hn : n = x
        · subst hn; simp [hs]
        · simp [hn]
      · rw [getS, if_neg (by omega), i3]
      · rw [getS]
        simp only [List.mem_append, List.mem_singleton, or_and_right, exists_or, exists_eq_left, hs, Option.some.injEq]
        by_cases hij : i = j
        · subst hij
          rw [if_pos rfl, mem_appendNew, i4 i hi v]
          constructor
          · rintro ((h | ⟨h, h'⟩) | h)
            · exact Or.inl h
            · exact Or.inr ⟨h, Or.inl h'⟩
            · exact Or.inr ⟨h, Or.inr rfl⟩
          · rintro (h | ⟨h, h' | _⟩)
            · exact Or.inl (Or.inl h)
            · exact Or.inl (Or.inr ⟨h, h'⟩)
            · exact Or.inr h
        · rw [if_neg hij, i4 i hi v]
          simp [show ¬ j = i from fun h => hij h.symm]
      · rw [getS]
        obtain ⟨t, ht⟩ := i5 i hi
        by_cases hij : i = j
        · subst hij
          rw [if_pos rfl]
          obtain ⟨t', ht'⟩ := appendNew_prefix (s1.lists.getD i []) vals
          exact ⟨t ++ t', by rw [ht', ht, List.append_assoc]⟩
        · rw [if_neg hij]; exact ⟨t, ht⟩
      · rw [getS]
        by_cases hij : i = j
        · subst hij; rw [if_pos rfl]; exact nodup_appendNew _ _ (i6 i hi h)
        · rw [if_neg hij]; exact i6 i hi h

theorem firstSeen_append_of_seen (names : ρ → List ν) (recs : List ρ) (r : ρ) (n : ν) (h : ∃ r' ∈ recs, n ∈ names r') :
    firstSeen names (recs ++ [r]) n = firstSeen names recs n ∧ firstSeen names recs n < recs.length := by
  have hlt : recs.findIdx (fun r => decide (n ∈ names r)) < recs.length := by
    rw [List.findIdx_lt_length]
    obtain ⟨r', h1, h2⟩ := h
    exact ⟨r', h1, by simpa using h2⟩
  unfold firstSeen
  rw [List.findIdx_append, if_pos hlt]
  exact ⟨rfl, hlt⟩

theorem firstSeen_append_of_new (names : ρ → List ν) (recs : List ρ) (r : ρ) (n : ν) (h : ¬ ∃ r' ∈ recs, n ∈ names r')
    (hr : n ∈ names r) : firstSeen names (recs ++ [r]) n = recs.length := by
  have hlt : ¬ recs.findIdx (fun r => decide (n ∈ names r)) < recs.length := by
    rw [List.findIdx_lt_length]
    rintro ⟨r', h1, h2⟩
    exact h ⟨r', h1, by simpa using h2⟩
  unfold firstSeen
  rw [List.findIdx_append, if_neg hlt]
  simp [List.findIdx_cons, hr]

/-- The lists of the nodes after any records. -/
theorem noteRecords_spec (vs : ρ → List σ) (names : ρ → List ν) (recs : List ρ) :
    let s := noteRecords vs names (⟨[], []⟩ : Attribs ν σ) recs
    s.lists.length = recs.length ∧
    (∀ n, (∃ r ∈ recs, n ∈ names r) → s.ref.get? n = some (firstSeen names recs n)) ∧
    (∀ n, (¬ ∃ r ∈ recs, n ∈ names r) → s.ref.get? n = none) ∧
    (∀ i r, recs[i]? = some r → ∀ v, v ∈ s.lists.getD i [] ↔
      v ∈ vs r ∨ ∃ r' ∈ recs, v ∈ vs r' ∧ ∃ m ∈ names r', firstSeen names recs m = i) ∧
    (∀ i r, recs[i]? = some r → ∃ t, s.lists.getD i [] = vs r ++ t) ∧
    (∀ i r, recs[i]? = some r → (vs r).Nodup → (s.lists.getD i []).Nodup) := by
  induction recs using List.reverseRecOn with
  | nil => simp [noteRecords]
  | append_singleton recs r ih =>
    obtain ⟨i1, i2, i3, i4, i5, i6⟩ := ih
    have hstep : noteRecords vs names (⟨[], []⟩ : Attribs ν σ) (recs ++ [r]) =
        noteRecord (vs r) (noteRecords vs names ⟨[], []⟩ recs) (names r) := by
      unfold noteRecords; rw [List.foldl_append]; rfl
    rw [hstep]
    unfold noteRecord
    generalize noteRecords vs names (⟨[], []⟩ : Attribs ν σ) recs = s at i1 i2 i3 i4 i5 i6
    have href : ∀ m i, s.ref.get? m = some i → (∃ r ∈ recs, m ∈ names r) ∧ firstSeen names recs m = i ∧ i < s.lists.length := by
      intro m i h
      by_cases hs : ∃ r ∈ recs, m ∈ names r
      · have := i2 m hs
        rw [this, Option.some.injEq] at h
        subst h
        exact ⟨hs, rfl, by rw [i1]; exact (firstSeen_append_of_seen names recs r m hs).2⟩
      · rw [i3 m hs] at h; simp at h
    obtain ⟨f1, f2, f3, f4, f5, f6⟩ := noteFold s (vs r) s.lists.length rfl (fun m i h => (href m i h).2.2) (names r)
    have hall : ∀ n, (∃ r' ∈ recs ++ [r], n ∈ names r') ↔ (∃ r' ∈ recs, n ∈ names r') ∨ n ∈ names r := by
      intro n; simp [or_and_right, exists_or]
    refine ⟨by rw [f1, i1]; simp, fun n hn => ?_, fun n hn => ?_, fun i r' hr' v => ?_, fun i r' hr' => ?_,
      fun i r' hr' hnd => ?_⟩
    · rw [f2]
      by_cases hs : ∃ r ∈ recs, n ∈ names r
      · rw [i2 n hs, (firstSeen_append_of_seen names recs r n hs).1]; simp
      · rw [hall] at hn
        have hr := hn.resolve_left hs
        rw [i3 n hs, firstSeen_append_of_new names recs r n hs hr]
        simp [hr, i1]
    · rw [hall, not_or] at hn
      rw [f2, i3 n hn.1]
      simp [hn.2]
    · by_cases hi : i < recs.length
      · have hri : recs[i]? = some r' := by rw [List.getElem?_append_left hi] at hr'; exact hr'
        rw [f4 i (by omega), i4 i r' hri v]
        have hfs : ∀ m, (∃ q ∈ recs, m ∈ names q) → firstSeen names (recs ++ [r]) m = firstSeen names recs m :=
          fun m hm => (firstSeen_append_of_seen names recs r m hm).1
        constructor
        · rintro ((h | ⟨q, hq, hv, m, hm, hm'⟩) | ⟨hv, m, hm, hm'⟩)
          · exact Or.inl h
          · exact Or.inr ⟨q, by simp [hq], hv, m, hm, by rw [hfs m ⟨q, hq, hm⟩]; exact hm'⟩
          · obtain ⟨h1, h2, -⟩ := href m i hm'
            exact Or.inr ⟨r, by simp, hv, m, hm, by rw [hfs m h1]; exact h2⟩
        · rintro (h | ⟨q, hq, hv, m, hm, hm'⟩)
          · exact Or.inl (Or.inl h)
          · have hseen : ∃ q ∈ recs, m ∈ names q := by
              by_contra hcon
              have hmr : m ∈ names r := by
                have : ∃ r' ∈ recs ++ [r], m ∈ names r' := ⟨q, hq, hm⟩
                rw [hall] at this
                exact this.resolve_left hcon
              rw [firstSeen_append_of_new names recs r m hcon hmr] at hm'
              omega
            rw [hfs m hseen] at hm'
            rcases List.mem_append.1 hq with hq | hq
            · exact Or.inl (Or.inr ⟨q, hq, hv, m, hm, hm'⟩)
            · simp only [List.mem_singleton] at hq
              subst hq
              exact Or.inr ⟨hv, m, hm, by rw [i2 m hseen, hm']⟩
      · have hi' : i = recs.length := by
          have := (List.getElem?_eq_some_iff.1 hr').1
          simp at this; omega
        subst hi'
        have : r' = r := by simpa using hr'.symm
        subst this
        have f3' : (List.foldl (noteNode (some s.lists.length)) { ref := s.ref, lists := s.lists ++ [vs r'] } (names r')).lists.getD
            recs.length [] = vs r' := by rw [← i1]; exact f3
        rw [f3']
        constructor
        · exact Or.inl
        · rintro (h | ⟨q, hq, hv, m, hm, hm'⟩)
          · exact h
          · have hnew : ¬ ∃ q ∈ recs, m ∈ names q := by
              intro hcon
              have := firstSeen_append_of_seen names recs r' m hcon
              omega
            rcases List.mem_append.1 hq with hq | hq
            · exact absurd ⟨q, hq, hm⟩ hnew
            · simp only [List.mem_singleton] at hq
              subst hq; exact hv
    · by_cases hi : i < recs.length
      · have hri : recs[i]? = some r' := by rw [List.getElem?_append_left hi] at hr'; exact hr'
        obtain ⟨t, ht⟩ := f5 i (by omega)
        obtain ⟨t', ht'⟩ := i5 i r' hri
        exact ⟨t' ++ t, by rw [ht, ht', List.append_assoc]⟩
      · have hi' : i = recs.length := by
          have := (List.getElem?_eq_some_iff.1 hr').1
          simp at this; omega
        subst hi'
        have : r' = r := by simpa using hr'.symm
        subst this
        exact ⟨[], by rw [List.append_nil, ← i1]; exact f3⟩
    · by_cases hi : i < recs.length
      · have hri : recs[i]? = some r' := by rw [List.getElem?_append_left hi] at hr'; exact hr'
        exact f6 i (by omega) (i6 i r' hri hnd)
      · have hi' : i = recs.length := by
          have := (List.getElem?_eq_some_iff.1 hr').1
          simp at this; omega
        subst hi'
        have : r' = r := by simpa using hr'.symm
        subst this
        rw [← i1, f3]; exact hnd

end Verif.Model.NetworkAttrs
