import Verif.Spec.CiteNetworks
import Verif.Lemmas.CoNetworks

set_option autoImplicit false
set_option linter.unusedSectionVars false
set_option linter.unusedSimpArgs false
namespace Verif.Model.CiteNetworks
open Verif.Py Verif.Py.Graph Verif.Spec Verif.Model.Networks Verif.Model.Citation Verif.Model.CoNetworks

/-! ## filterCites -/

def keepB (env : Env) (nodeType : NodeType) (dropAnon dropNonJournals : Bool) (keyWords : KeyWords)
    (coreCites : Option (List Cite)) (c : Cite) : Bool :=
  !(nodeType ≠ .full && emptyAttr nodeType c) && !(dropNonJournals && !env.isJournal c) && !(dropAnon && isAnonymous c) &&
  (match coreCites with
    | none => true
    | some core => core.any (fun d => citeEq env.hash c d)) &&
  !((KeyWords.toList keyWords).any (fun k => decide (env.upper k <:+: env.upper c.original)))

theorem ite_flip {α β : Type} (p : Prop) (l : List β) (q : β → Prop) (x y : α) (_ : Unit) [Decidable (p ∨ ∃ x ∈ l, q x)]
    [Decidable (¬ p ∧ ∀ x ∈ l, ¬ q x)] :
    (if p ∨ ∃ x ∈ l, q x then x else y) = if ¬ p ∧ ∀ x ∈ l, ¬ q x then y else x := by
  by_cases h : p ∨ ∃ x ∈ l, q x
  · rw [if_pos h, if_neg]
    rintro ⟨h1, h2⟩
    rcases h with h | ⟨x, hx, hq⟩
    · exact h1 h
    · exact h2 x hx hq
  · rw [if_neg h, if_pos]
    exact ⟨fun hp => h (Or.inl hp), fun x hx hq => h (Or.inr ⟨x, hx, hq⟩)⟩

theorem filterCites_eq (env : Env) (nodeType : NodeType) (dropAnon dropNonJournals : Bool) (keyWords : KeyWords)
    (coreCites : Option (List Cite)) (cites : List Cite) :
    filterCites env nodeType dropAnon dropNonJournals keyWords coreCites cites =
      cites.filter (keepB env nodeType dropAnon dropNonJournals keyWords coreCites) := by
  have key : ∀ (acc : List Cite) (c : Cite),
      filterStep env nodeType dropAnon dropNonJournals keyWords coreCites acc c = if keepB env nodeType dropAnon dropNonJournals keyWords coreCites c then acc ++ [c] else acc := by
    intro acc c
    unfold keepB filterStep
    cases h1 : (nodeType ≠ .full && emptyAttr nodeType c : Bool)
    · cases h2 : (dropNonJournals && !env.isJournal c)
      · cases h3 : (dropAnon && isAnonymous c)
        · cases coreCites with
          | none =>
            rcases keyWords with _ | ⟨_ | ⟨a, s⟩⟩ | ⟨_ | ⟨a, l⟩⟩
            all_goals simp [KeyWords.toList]
            all_goals exact ite_flip _ _ _ _ _ ()
          | some core =>
            cases h4 : core.any (fun d => citeEq env.hash c d)
            · simp [h4]
            · rcases keyWords with _ | ⟨_ | ⟨a, s⟩⟩ | ⟨_ | ⟨a, l⟩⟩
              all_goals simp [KeyWords.toList, h4]
              all_goals exact ite_flip _ _ _ _ _ ()
        · simp [h3]
      · simp [h2]
    · simp [h1]
  unfold filterCites
  have fold : ∀ acc : List Cite, cites.foldl (fun acc c =>
      if keepB env nodeType dropAnon dropNonJournals keyWords coreCites c then acc ++ [c] else acc) acc =
      acc ++ cites.filter (keepB env nodeType dropAnon dropNonJournals keyWords coreCites) := by
    induction cites with
    | nil => simp
    | cons c cites ih =>
      intro acc
      rw [List.foldl_cons, ih, List.filter_cons]
      split <;> simp
  have hfun : filterStep env nodeType dropAnon dropNonJournals keyWords coreCites = fun acc c =>
      if keepB env nodeType dropAnon dropNonJournals keyWords coreCites c then acc ++ [c] else acc := by
    funext acc c; exact key acc c
  rw [hfun]
  exact (fold []).trans (List.nil_append _)

theorem emptyAttr_iff (nt : NodeType) (c : Cite) (h : HasAttr nt c) :
    (nt ≠ .full && emptyAttr nt c : Bool) = false ↔ HasValue nt c := by
  cases nt
  · simp [HasValue, emptyAttr]
  · simp [HasValue, emptyAttr]
  · simp only [HasAttr] at h
    rcases hc : c.author with _ | _ | s
    · exact absurd hc h
    · simp [HasValue, emptyAttr, hc]
    · simp [HasValue, emptyAttr, hc]
  · simp only [HasAttr] at h
    rcases hc : c.journal with _ | _ | s
    · exact absurd hc h
    · simp [HasValue, emptyAttr, hc]
    · simp [HasValue, emptyAttr, hc]
  · simp only [HasAttr] at h
    rcases hc : c.year with _ | _ | s
    · exact absurd hc h
    · simp [HasValue, emptyAttr, hc]
    · simp [HasValue, emptyAttr, hc]

theorem anonymous_iff (c : Cite) : isAnonymous c = true ↔ Anonymous c := by
  unfold isAnonymous Anonymous
  rcases c.author with _ | a
  · simp
  · simp

theorem keepB_iff (env : Env) (nt : NodeType) (da dn : Bool) (kw : KeyWords) (core : Option (List Cite)) (c : Cite) :
    keepB env nt da dn kw core c = true ↔
      (nt ≠ .full && emptyAttr nt c : Bool) = false ∧
      (dn = true → env.isJournal c = true) ∧
      (da = true → ¬ Anonymous c) ∧
      (∀ cs, core = some cs → ∃ d ∈ cs, env.hash d.id = env.hash c.id) ∧
      (∀ k ∈ KeyWords.toList kw, ¬ env.upper k <:+: env.upper c.original) := by
  unfold keepB
  rw [Bool.and_eq_true, Bool.and_eq_true, Bool.and_eq_true, Bool.and_eq_true]
  have e1 : ∀ b : Bool, (!b) = true ↔ b = false := by decide
  have e2 : (!(dn && !env.isJournal c)) = true ↔ (dn = true → env.isJournal c = true) := by
    cases dn <;> cases env.isJournal c <;> simp
  have e3 : (!(da && isAnonymous c)) = true ↔ (da = true → ¬ Anonymous c) := by
    rw [← anonymous_iff]
    cases da <;> cases isAnonymous c <;> simp
  have e4 : (match core with
    | none => true
    | some core => core.any (fun d => citeEq env.hash c d)) = true ↔
      (∀ cs, core = some cs → ∃ d ∈ cs, env.hash d.id = env.hash c.id) := by
    cases core with
    | none => simp
    | some core =>
      simp only [List.any_eq_true, citeEq, beq_iff_eq, Option.some.injEq, forall_eq']
      constructor
      · rintro ⟨d, hd, h⟩; exact ⟨d, hd, h.symm⟩
      · rintro ⟨d, hd, h⟩; exact ⟨d, hd, h.symm⟩
  have e5 : (!((KeyWords.toList kw).any (fun k => decide (env.upper k <:+: env.upper c.original)))) = true ↔
      (∀ k ∈ KeyWords.toList kw, ¬ env.upper k <:+: env.upper c.original) := by simp
  rw [e1, e2, e3, e4, e5]
  simp only [and_assoc]

/-! ## Blocks: what one record contributes -/

variable {ρ ι : Type} [Inhabited ι]

def citeUpd (count : Bool) : Bool × ι → Option (CoAttr ι) → CoAttr ι
  | (_, i), none => { count := if count then some 1 else none, info := i }
  | (true, _), some a => a
  | (false, i), some a => coUpd count i (some a)

theorem addHead_eq (count w : Bool) (g : CiteNet ι) (h : NodeId) (i : ι) :
    addHead count g h i = apply w (citeUpd count) g (.node h (true, i)) := by
  have hev : apply w (citeUpd count) g (.node h (true, i)) = g.setNode h (citeUpd count (true, i) (g.node? h)) := rfl
  rw [hev]
  unfold addHead citeUpd
  cases hh : g.node? h with
  | none => rfl
  | some a => simp [setNode_self _ _ _ hh]

theorem addCited_eq (count w : Bool) (g : CiteNet ι) (h : NodeId) (i : ι) :
    addCited count g h i = apply w (citeUpd count) g (.node h (false, i)) := by
  have hev : apply w (citeUpd count) g (.node h (false, i)) = g.setNode h (citeUpd count (false, i) (g.node? h)) := rfl
  rw [addCited, coNode_eq count w, hev]
  have hev2 : apply w (coUpd count) g (.node h i) = g.setNode h (coUpd count i (g.node? h)) := rfl
  rw [hev2]
  cases hh : g.node? h <;> rfl

theorem addEdges_eq (g : CiteNet ι) (es : List (NodeId × NodeId)) :
    addEdges g es = es.foldl (fun g e => bumpEdge false g e.1 e.2) g := rfl

theorem bump_of_hasEdge (g : CiteNet ι) (u v : NodeId) (h : g.hasEdge u v = true) : bumpEdge false g u v = g := by
  unfold hasEdge at h
  unfold bumpEdge
  simp only [Bool.false_eq_true, if_false]
  cases h2 : g.edge? u v with
  | none => rw [h2] at h; simp at h
  | some b => rfl

theorem hasEdge_bump (g : CiteNet ι) (u v x y : NodeId) (h : g.hasEdge x y = true) :
    (bumpEdge false g u v).hasEdge x y = true := by
  unfold bumpEdge
  simp only [Bool.false_eq_true, if_false]
  split
  · exact h
  · unfold hasEdge at *
    rw [edge?_setEdge]
    split
    · rfl
    · exact h

theorem foldl_bump_filter (g0 g : CiteNet ι) (es : List (NodeId × NodeId))
    (h : ∀ x y, g0.hasEdge x y = true → g.hasEdge x y = true) :
    (es.filter (fun e => !g0.hasEdge e.1 e.2)).foldl (fun g e => bumpEdge false g e.1 e.2) g =
      es.foldl (fun g e => bumpEdge false g e.1 e.2) g := by
  induction es generalizing g with
  | nil => rfl
  | cons e es ih =>
    rw [List.filter_cons]
    cases he : g0.hasEdge e.1 e.2
    · simp only [Bool.not_false, if_true, List.foldl_cons]
      exact ih _ (fun x y hxy => hasEdge_bump _ _ _ _ _ (h x y hxy))
    · simp only [Bool.not_true, Bool.false_eq_true, if_false, List.foldl_cons]
      rw [ih g h, bump_of_hasEdge _ _ _ (h _ _ he)]

theorem linkAll_eq (w : Bool) (g : CiteNet ι) (ids : List NodeId) :
    linkAll w g ids = (pairs ids).foldl (fun g e => bumpEdge w g e.1 e.2) g := by
  unfold linkAll
  cases w
  · simp only [Bool.false_eq_true, if_false, addEdges_eq]
    exact foldl_bump_filter g g _ (fun _ _ h => h)
  · rfl

/-- What one record adds to the network. -/
structure Block (ι : Type) where
  head : Option (NodeId × ι)
  cited : List (NodeId × ι)
  edges : List (NodeId × NodeId)

def Block.nodeEvs (b : Block ι) : List (Ev NodeId (Bool × ι)) :=
  b.head.toList.map (fun p => .node p.1 (true, p.2)) ++ b.cited.map (fun p => .node p.1 (false, p.2))

def Block.evs (b : Block ι) : List (Ev NodeId (Bool × ι)) := b.nodeEvs ++ b.edges.map (fun e => .edge e.1 e.2)

/-- The ends of the edges are nodes of the block. -/
def Block.Closed (b : Block ι) : Prop :=
  ∀ e ∈ b.edges, ∀ m, e.1 = m ∨ e.2 = m → (∃ p ∈ b.head.toList, p.1 = m) ∨ (∃ p ∈ b.cited, p.1 = m)

/-- All the nodes of the block, the head first. -/
def Block.all (b : Block ι) : List (Bool × NodeId × ι) :=
  b.head.toList.map (fun p => (true, p)) ++ b.cited.map (fun p => (false, p))

def isCited (m : NodeId) : Ev NodeId (Bool × ι) → Bool
  | .node n (false, _) => decide (n = m)
  | _ => false

theorem nodeEvs_all (b : Block ι) : b.nodeEvs = b.all.map (fun p => .node p.2.1 (p.1, p.2.2)) := by
  simp [Block.nodeEvs, Block.all, Function.comp_def]

theorem find_nodes (m : NodeId) (l : List (Bool × NodeId × ι)) :
    (l.map (fun p => Ev.node p.2.1 (p.1, p.2.2))).find? (Ev.mentions m) =
      (l.find? (fun p => decide (p.2.1 = m))).map (fun p => Ev.node p.2.1 (p.1, p.2.2)) ∧
    (l.map (fun p => Ev.node p.2.1 (p.1, p.2.2))).find? (Ev.isNode m) =
      (l.find? (fun p => decide (p.2.1 = m))).map (fun p => Ev.node p.2.1 (p.1, p.2.2)) := by
  induction l with
  | nil => simp
  | cons p l ih =>
    by_cases hp : p.2.1 = m
    · simp [Ev.mentions, Ev.isNode, hp]
    · have n1 : ¬ Ev.mentions m (Ev.node p.2.1 (p.1, p.2.2)) = true := by simp only [Ev.mentions, decide_eq_true_eq]; exact hp
      have n2 : ¬ Ev.isNode m (Ev.node p.2.1 (p.1, p.2.2)) = true := by simp only [Ev.isNode, decide_eq_true_eq]; exact hp
      rw [List.map_cons, List.find?_cons_of_neg n1, List.find?_cons_of_neg n2, ih.1, ih.2,
        List.find?_cons_of_neg (by simp [hp])]
      exact ⟨rfl, rfl⟩

theorem find_block (m : NodeId) (b : Block ι) (hb : b.Closed) :
    b.evs.find? (Ev.mentions m) =
      (b.all.find? (fun p => decide (p.2.1 = m))).map (fun p => Ev.node p.2.1 (p.1, p.2.2)) ∧
    b.evs.find? (Ev.isNode m) =
      (b.all.find? (fun p => decide (p.2.1 = m))).map (fun p => Ev.node p.2.1 (p.1, p.2.2)) := by
  unfold Block.evs
  rw [nodeEvs_all, List.find?_append, List.find?_append, (find_nodes m _).1, (find_nodes m _).2]
  cases hf : b.all.find? (fun p => decide (p.2.1 = m)) with
  | some p => simp
  | none =>
    rw [List.find?_eq_none] at hf
    constructor
    · simp only [Option.map_none, Option.none_or, List.find?_eq_none, List.mem_map]
      rintro x ⟨e, he, rfl⟩
      simp only [Ev.mentions, decide_eq_true_eq]
      intro hm
      rcases hb e he m hm with ⟨p, hp, hpm⟩ | ⟨p, hp, hpm⟩
      · exact hf (true, p) (List.mem_append_left _ (List.mem_map.2 ⟨p, hp, rfl⟩)) (by simpa using hpm)
      · exact hf (false, p) (List.mem_append_right _ (List.mem_map.2 ⟨p, hp, rfl⟩)) (by simpa using hpm)
    · simp only [Option.map_none, Option.none_or, List.find?_eq_none, List.mem_map]
      rintro x ⟨e, he, rfl⟩
      simp [Ev.isNode]

theorem fold_cite (count : Bool) (m : NodeId) (evs : List (Ev NodeId (Bool × ι)))
    (hfirst : evs.find? (Ev.mentions m) = evs.find? (Ev.isNode m)) :
    (evs.foldl (Ev.onNode (citeUpd count) m) none =
      match evs.find? (Ev.isNode m) with
      | some (.node _ (hd, i)) =>
        some { count := if count then some ((if hd then 1 else 0) + evs.countP (isCited m)) else none, info := i }
      | _ => none) := by
  have some_case : ∀ (evs : List (Ev NodeId (Bool × ι))) (c : Nat) (i : ι),
      evs.foldl (Ev.onNode (citeUpd count) m) (some { count := if count then some c else none, info := i }) =
        some { count := if count then some (c + evs.countP (isCited m)) else none, info := i } := by
    intro evs
    induction evs with
    | nil => intro c i; simp
    | cons e evs ih =>
      intro c i
      rw [List.foldl_cons, List.countP_cons]
      cases e with
      | edge u v =>
        have : Ev.onNode (citeUpd count) m (some ⟨if count then some c else none, i⟩) (Ev.edge u v) =
            some ⟨if count then some c else none, i⟩ := by simp [Ev.onNode]
        rw [this, ih]; simp [isCited]
      | node n t =>
        obtain ⟨hd, t⟩ := t
        by_cases hn : n = m
        · cases hd
          · have : Ev.onNode (citeUpd count) m (some ⟨if count then some c else none, i⟩) (Ev.node n (false, t)) =
              some ⟨if count then some (c + 1) else none, i⟩ := by cases count <;> simp [Ev.onNode, hn, citeUpd, coUpd]
            rw [this, ih]; simp only [isCited, hn, decide_true, if_true, Nat.add_assoc, Nat.add_comm 1]
          · have : Ev.onNode (citeUpd count) m (some ⟨if count then some c else none, i⟩) (Ev.node n (true, t)) =
              some ⟨if count then some c else none, i⟩ := by simp [Ev.onNode, hn, citeUpd]
            rw [this, ih]; simp [isCited]
        · have : Ev.onNode (citeUpd count) m (some ⟨if count then some c else none, i⟩) (Ev.node n (hd, t)) =
            some ⟨if count then some c else none, i⟩ := by simp [Ev.onNode, hn]
          rw [this, ih]; cases hd <;> simp [isCited, hn]
  induction evs with
  | nil => rfl
  | cons e evs ih =>
    rw [List.foldl_cons]
    cases e with
    | edge u v =>
      by_cases hm : u = m ∨ v = m
      · rw [List.find?_cons_of_pos (by simpa [Ev.mentions] using hm), List.find?_cons_of_neg (by simp [Ev.isNode])] at hfirst
        have := List.find?_some hfirst.symm
        simp [Ev.isNode] at this
      · rw [List.find?_cons_of_neg (by simpa [Ev.mentions] using hm), List.find?_cons_of_neg (by simp [Ev.isNode])] at hfirst
        have : Ev.onNode (citeUpd count) m none (Ev.edge u v) = (none : Option (CoAttr ι)) := by simp [Ev.onNode, hm]
        rw [this, ih hfirst, List.find?_cons_of_neg (by simp [Ev.isNode]), List.countP_cons]
        simp [isCited]
    | node n t =>
      obtain ⟨hd, t⟩ := t
      by_cases hn : n = m
      · have : Ev.onNode (citeUpd count) m none (Ev.node n (hd, t)) = some ⟨if count then some 1 else none, t⟩ := by
          cases hd <;> simp [Ev.onNode, hn, citeUpd]
        rw [this, some_case, List.find?_cons_of_pos (by simp [Ev.isNode, hn]), List.countP_cons]
        cases hd <;> simp [isCited, hn, Nat.add_comm]
      · rw [List.find?_cons_of_neg (by simp [Ev.mentions, hn]), List.find?_cons_of_neg (by simp [Ev.isNode, hn])] at hfirst
        have : Ev.onNode (citeUpd count) m none (Ev.node n (hd, t)) = (none : Option (CoAttr ι)) := by simp [Ev.onNode, hn]
        rw [this, ih hfirst, List.find?_cons_of_neg (by simp [Ev.isNode, hn]), List.countP_cons]
        cases hd <;> simp [isCited, hn]

theorem countP_block_edges (d : Bool) (u v : NodeId) (b : Block ι) :
    b.evs.countP (Ev.isEdge d u v) = b.edges.countP (fun p => sameEdge d p (u, v)) := by
  unfold Block.evs
  rw [nodeEvs_all, List.countP_append, List.countP_map, List.countP_map]
  have : List.countP (Ev.isEdge d u v ∘ fun p : Bool × NodeId × ι => Ev.node p.2.1 (p.1, p.2.2)) b.all = 0 := by
    rw [List.countP_eq_zero]; intro p _; simp [Ev.isEdge]
  rw [this, Nat.zero_add]; rfl

theorem countP_block_cited (m : NodeId) (b : Block ι) :
    b.evs.countP (isCited m) = (b.cited.map Prod.fst).count m := by
  unfold Block.evs Block.nodeEvs
  rw [List.countP_append, List.countP_append, List.countP_map, List.countP_map, List.countP_map]
  have h1 : List.countP (isCited m ∘ fun p : NodeId × ι => Ev.node p.1 (true, p.2)) b.head.toList = 0 := by
    rw [List.countP_eq_zero]; intro p _; simp [isCited]
  have h2 : List.countP ((isCited m : Ev NodeId (Bool × ι) → Bool) ∘ fun p : NodeId × NodeId => Ev.edge p.1 p.2) b.edges = 0 := by
    rw [List.countP_eq_zero]; intro p _; simp [isCited]
  rw [h1, h2, List.count, List.countP_map]
  simp only [Nat.zero_add, Nat.add_zero]
  apply List.countP_congr
  intro p _
  simp [isCited]

theorem blocks_spec (count w d : Bool) (bs : List (Block ι)) (hc : ∀ b ∈ bs, b.Closed) :
    let g := run w (citeUpd count) (Graph.empty d : CiteNet ι) (bs.flatMap Block.evs)
    g.WF ∧ g.directed = d ∧
    (∀ u v, g.edge? u v = edgeFor w (bs.map (fun b => b.edges.countP (fun p => sameEdge d p (u, v)))).sum) ∧
    (∀ m, g.node? m = ((bs.flatMap Block.all).find? (fun p => decide (p.2.1 = m))).map (fun p =>
      { count := if count then some ((if p.1 then 1 else 0) + (bs.map (fun b => (b.cited.map Prod.fst).count m)).sum) else none,
        info := p.2.2 })) := by
  obtain ⟨h1, h2, h3, h4⟩ := run_spec w d (citeUpd count) (bs.flatMap Block.evs)
  refine ⟨h1, h2, fun u v => ?_, fun m => ?_⟩
  · rw [h3, sum_map_countP]; simp only [countP_block_edges]; rfl
  · have hf : (bs.flatMap Block.evs).find? (Ev.mentions m) =
          ((bs.flatMap Block.all).find? (fun p => decide (p.2.1 = m))).map (fun p => Ev.node p.2.1 (p.1, p.2.2)) ∧
        (bs.flatMap Block.evs).find? (Ev.isNode m) =
          ((bs.flatMap Block.all).find? (fun p => decide (p.2.1 = m))).map (fun p => Ev.node p.2.1 (p.1, p.2.2)) := by
      clear h1 h2 h3 h4
      induction bs with
      | nil => simp
      | cons b bs ih =>
        have hb := find_block m b (hc b (by simp))
        obtain ⟨i1, i2⟩ := ih (fun b' hb' => hc b' (by simp [hb']))
        rw [List.flatMap_cons, List.find?_append, List.find?_append, i1, i2, List.flatMap_cons, List.find?_append, hb.1, hb.2]
        cases b.all.find? (fun p => decide (p.2.1 = m)) <;> simp
    rw [h4, fold_cite count m _ (hf.1.trans hf.2.symm), hf.2, sum_map_countP]
    simp only [countP_block_cited]
    cases (bs.flatMap Block.all).find? (fun p => decide (p.2.1 = m)) <;> rfl

/-! ## addToNetwork as a block -/

theorem makeID_ok {nt : NodeType} {c : Cite} (h : HasAttr nt c) (hv : HasValue nt c) :
    makeID nt c = .ok (nodeName nt c) := by
  cases nt
  · rfl
  · rfl
  · obtain ⟨s, hs, _⟩ := hv; simp [makeID, nodeName, hs]
  · obtain ⟨s, hs, _⟩ := hv; simp [makeID, nodeName, hs]
  · obtain ⟨s, hs, _⟩ := hv; simp [makeID, nodeName, hs]

theorem mapM_ok {A B E : Type} (f : A → Except E B) (f' : A → B) (l : List A) (h : ∀ a ∈ l, f a = .ok (f' a)) :
    l.mapM f = .ok (l.map f') := by
  induction l with
  | nil => rfl
  | cons a l ih =>
    rw [List.mapM_cons, h a (by simp), ih (fun b hb => h b (by simp [hb]))]
    rfl

def citedOf (nt : NodeType) (info : Cite → ι) (cs : List Cite) : List (NodeId × ι) := cs.map (fun c => (nodeName nt c, info c))

theorem zip_citedOf (nt : NodeType) (info : Cite → ι) (cs : List Cite) :
    (cs.map (nodeName nt)).zip (cs.map info) = citedOf nt info cs := by
  induction cs with
  | nil => rfl
  | cons c cs ih => simp [citedOf] at *; exact ih

theorem foldl_addCited (count w : Bool) (g : CiteNet ι) (l : List (NodeId × ι)) :
    l.foldl (fun g n => addCited count g n.1 n.2) g =
      run w (citeUpd count) g (l.map (fun p => .node p.1 (false, p.2))) := by
  unfold run
  rw [List.foldl_map]
  congr 1
  funext g n
  exact addCited_eq count w g n.1 n.2

theorem foldl_edges (count w : Bool) (g : CiteNet ι) (l : List (NodeId × NodeId)) :
    l.foldl (fun g e => bumpEdge w g e.1 e.2) g =
      run w (citeUpd count) g (l.map (fun e => Ev.edge e.1 e.2)) := by
  unfold run
  rw [List.foldl_map]
  rfl

theorem addToNetwork_none (nt : NodeType) (count w rtc : Bool) (info : Cite → ι) (nds : List Cite) (g : CiteNet ι)
    (h : ∀ c ∈ nds, HasAttr nt c ∧ HasValue nt c) :
    addToNetwork nt count w rtc info none nds g =
      .ok (run w (citeUpd count) g (Block.evs ⟨none, citedOf nt info nds, pairs (nds.map (nodeName nt))⟩)) := by
  unfold addToNetwork
  simp only [mapM_ok _ (nodeName nt) nds (fun c hc => makeID_ok (h c hc).1 (h c hc).2)]
  show Except.ok _ = Except.ok _
  congr 1
  rw [zip_citedOf, foldl_addCited count w, linkAll_eq, foldl_edges count w, ← run_append]
  rfl

/-- Edges with the head in the cases the code treats properly. -/
def headEdges (rtc : Bool) (h : NodeId) (ids : List NodeId) : List (NodeId × NodeId) :=
  ids.map (fun n => if rtc then (h, n) else (n, h))

theorem linkHead_eq (whole w rtc : Bool) (g : CiteNet ι) (h : NodeId) (ids : List NodeId)
    (hcase : (whole = true ∧ (w = true ∨ rtc = true)) ∨ (w = true ∧ rtc = true)) :
    linkHead whole w rtc g h ids = .ok ((headEdges rtc h ids).foldl (fun g e => bumpEdge w g e.1 e.2) g) := by
  unfold linkHead headEdges
  rw [List.foldl_map]
  cases whole
  · obtain ⟨rfl, rfl⟩ := (hcase.resolve_left (by simp))
    simp
  · cases w
    · have hr : rtc = true := by
        rcases hcase with ⟨_, h | h⟩ | ⟨h, _⟩
        · cases h
        · exact h
        · cases h
      subst hr
      simp only [if_true, Bool.false_eq_true, if_false, addEdges_eq]
      rw [show (ids.filter (fun n => !g.hasEdge h n)).map (fun n => (h, n)) =
        (ids.map (fun n => (h, n))).filter (fun e => !g.hasEdge e.1 e.2) by rw [List.filter_map]; rfl]
      rw [foldl_bump_filter g g (ids.map (fun n => (h, n))) (fun _ _ h => h), List.foldl_map]
    · cases rtc <;> simp

theorem addToNetwork_some (nt : NodeType) (count w rtc : Bool) (info : Cite → ι) (hd : Cite) (nds : List Cite)
    (g : CiteNet ι) (hcase : (nt.whole = true ∧ (w = true ∨ rtc = true)) ∨ (w = true ∧ rtc = true))
    (hhd : HasAttr nt hd ∧ HasValue nt hd) (hyear : nt.whole = true → hd.year ≠ none) (hid : (nodeName nt hd).truthy = true)
    (h : ∀ c ∈ nds, HasAttr nt c ∧ HasValue nt c) :
    addToNetwork nt count w rtc info (some hd) nds g =
      .ok (run w (citeUpd count) g
        (Block.evs ⟨some (nodeName nt hd, info hd), citedOf nt info nds, headEdges rtc (nodeName nt hd) (nds.map (nodeName nt))⟩)) := by
  unfold addToNetwork
  simp only [mapM_ok _ (nodeName nt) nds (fun c hc => makeID_ok (h c hc).1 (h c hc).2), makeID_ok hhd.1 hhd.2]
  have hy : (nt.whole && hd.year.isNone) = false := by
    cases hw : nt.whole
    · rfl
    · have := hyear hw
      cases hh : hd.year with
      | none => exact absurd hh this
      | some y => rfl
  simp only [hy, Bool.false_eq_true, if_false, bind, Except.bind, hid, if_true]
  refine (linkHead_eq (ι := ι) _ _ _ _ _ _ hcase).trans ?_
  congr 1
  rw [zip_citedOf, foldl_addCited count w, foldl_edges count w, addHead_eq count w, ← run_append, ← run_cons]
  rfl

theorem foldlM_run {σ : Type} (w : Bool) {A : Type} [Inhabited A] (f : σ → Option A → A) (evs : ρ → List (Ev NodeId σ))
    (step : Graph NodeId A (Option Nat) → ρ → Except NetErr (Graph NodeId A (Option Nat))) (recs : List ρ)
    (h : ∀ r ∈ recs, ∀ g, step g r = .ok (run w f g (evs r))) (g : Graph NodeId A (Option Nat)) :
    recs.foldlM step g = .ok (run w f g (recs.flatMap evs)) := by
  induction recs generalizing g with
  | nil => rfl
  | cons r recs ih =>
    rw [List.foldlM_cons, h r (by simp), List.flatMap_cons, run_append]
    exact ih (fun r' hr' => h r' (by simp [hr'])) _

theorem countP_headEdges (d rtc : Bool) (h u v : NodeId) (ids : List NodeId) :
    (headEdges rtc h ids).countP (fun p => sameEdge d p (u, v)) = headLinks d rtc h ids u v := by
  unfold headEdges
  cases rtc
  · simp only [Bool.false_eq_true, if_false]
    have : ((ids.map (fun n => (n, h))).countP (fun p => sameEdge d p (u, v))) =
        (ids.map (fun n => (h, n))).countP (fun p => sameEdge d p (v, u)) := by
      rw [List.countP_map, List.countP_map]
      apply List.countP_congr
      intro n _
      simp only [Function.comp, sameEdge_iff, Prod.mk.injEq]
      constructor <;> rintro (⟨h1, h2⟩ | ⟨h0, h1, h2⟩)
      · exact Or.inl ⟨h2, h1⟩
      · exact Or.inr ⟨h0, h2, h1⟩
      · exact Or.inl ⟨h2, h1⟩
      · exact Or.inr ⟨h0, h2, h1⟩
    rw [this, countP_star]
    unfold headLinks
    cases d
    · by_cases huv : u = v
      · subst huv; simp
      · have : ¬ v = u := fun e => huv e.symm
        simp [huv, this, Nat.add_comm]
    · simp
  · simp only [if_true]
    rw [countP_star]
    unfold headLinks
    cases d
    · by_cases huv : u = v <;> simp [huv]
    · simp

theorem pairs_mem {A : Type} (l : List A) : ∀ p ∈ pairs l, p.1 ∈ l ∧ p.2 ∈ l := by
  induction l with
  | nil => simp [pairs]
  | cons x l ih =>
    intro p hp
    rw [pairs, List.mem_append] at hp
    rcases hp with hp | hp
    · obtain ⟨y, hy, rfl⟩ := List.mem_map.1 hp
      exact ⟨by simp, by simp [hy]⟩
    · exact ⟨by simp [(ih p hp).1], by simp [(ih p hp).2]⟩

theorem citedOf_has (nt : NodeType) (info : Cite → ι) (cs : List Cite) (m : NodeId) (h : m ∈ cs.map (nodeName nt)) :
    ∃ p ∈ citedOf nt info cs, p.1 = m := by
  obtain ⟨c, hc, rfl⟩ := List.mem_map.1 h
  exact ⟨_, List.mem_map.2 ⟨c, hc, rfl⟩, rfl⟩

theorem closed_pairs (nt : NodeType) (info : Cite → ι) (cs : List Cite) (hd : Option (NodeId × ι)) :
    (⟨hd, citedOf nt info cs, pairs (cs.map (nodeName nt))⟩ : Block ι).Closed := by
  intro e he m hm
  have := pairs_mem _ e he
  right
  rcases hm with rfl | rfl
  · exact citedOf_has nt info cs _ this.1
  · exact citedOf_has nt info cs _ this.2

theorem closed_head (nt : NodeType) (info : Cite → ι) (cs : List Cite) (rtc : Bool) (h : NodeId) (i : ι) :
    (⟨some (h, i), citedOf nt info cs, headEdges rtc h (cs.map (nodeName nt))⟩ : Block ι).Closed := by
  intro e he m hm
  obtain ⟨n, hn, rfl⟩ := List.mem_map.1 he
  have hn' := citedOf_has nt info cs n hn
  cases rtc
  · rcases hm with rfl | rfl
    · exact Or.inr hn'
    · exact Or.inl ⟨(h, i), by simp, rfl⟩
  · rcases hm with rfl | rfl
    · exact Or.inl ⟨(h, i), by simp, rfl⟩
    · exact Or.inr hn'

end Verif.Model.CiteNetworks
