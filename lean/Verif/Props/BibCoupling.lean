import Verif.Props.CiteNetworks
import Mathlib.Data.List.Dedup

/-! # C18: bibliographic coupling -/
set_option autoImplicit false
set_option linter.unusedSectionVars false
set_option linter.unusedSimpArgs false
namespace Verif.Props
open Verif.Py Verif.Py.Graph Verif.Model.Citation Verif.Model.CiteNetworks Verif.Model.CoNetworks Verif.Model.Networks
  Verif.Spec

variable {ρ ι : Type} [Inhabited ι]

theorem getE_directed {B : Type} (l : List ((NodeId × NodeId) × B)) (p : NodeId × NodeId) :
    (getE true l p).isSome = true ↔ ∃ e ∈ l, e.1 = p := by
  induction l with
  | nil => simp [getE]
  | cons e l ih =>
    obtain ⟨k, b⟩ := e
    unfold getE
    by_cases h : k = p
    · simp [h, sameEdge_refl]
    · have : sameEdge true k p = false := by simp [sameEdge, h]
      simp [this, ih, h]

theorem mem_inSources {g : CiteNet ι} (hd : g.directed = true) (u n : NodeId) :
    u ∈ inSources g n ↔ g.hasEdge u n = true := by
  unfold inSources hasEdge edge?
  rw [hd, getE_directed]
  simp only [List.mem_map, List.mem_filter, decide_eq_true_eq]
  constructor
  · rintro ⟨e, ⟨he, h1⟩, h2⟩; exact ⟨e, he, Prod.ext h2 h1⟩
  · rintro ⟨e, he, h⟩; exact ⟨e, ⟨he, by rw [h]⟩, by rw [h]⟩

theorem nodup_inSources {g : CiteNet ι} (hg : g.WF) (hd : g.directed = true) (n : NodeId) : (inSources g n).Nodup := by
  unfold inSources
  have h := hg.edges
  rw [hd] at h
  rw [List.Nodup, List.pairwise_map]
  refine (h.filter _).imp_of_mem ?_
  intro a b ha hb hab heq
  simp only [List.mem_filter, decide_eq_true_eq] at ha hb
  have : a.1 = b.1 := Prod.ext heq (ha.2.trans hb.2.symm)
  rw [this, sameEdge_refl] at hab
  cases hab

/-- The updates of `couple`. -/
def coupleEvs (inCore : ι → Bool) (order : List NodeId) (g : CiteNet ι) : List (Ev NodeId (CoAttr ι)) :=
  (g.nodes.filter (fun nd => inCore nd.2.info)).map (fun nd => Ev.node nd.1 nd.2) ++
    order.flatMap (fun n => (pairs (inSources g n)).map (fun p => Ev.edge p.1 p.2))

theorem couple_run (w : Bool) (inCore : ι → Bool) (order : List NodeId) (g : CiteNet ι) :
    couple w inCore order g = run w (fun t _ => t) (Graph.empty false) (coupleEvs inCore order g) := by
  unfold couple coupleEvs
  rw [run_append]
  have h1 : ∀ (l : List (NodeId × CoAttr ι)) (g0 : CiteNet ι),
      l.foldl (fun w nd => if inCore nd.2.info then w.setNode nd.1 nd.2 else w) g0 =
        run w (fun t _ => t) g0 ((l.filter (fun nd => inCore nd.2.info)).map (fun nd => Ev.node nd.1 nd.2)) := by
    intro l
    induction l with
    | nil => intro g0; rfl
    | cons nd l ih =>
      intro g0
      rw [List.foldl_cons, List.filter_cons, ih]
      cases inCore nd.2.info <;> rfl
  rw [h1]
  generalize run w (fun (t : CoAttr ι) _ => t) (Graph.empty false : CiteNet ι) _ = g0
  have h2 : ∀ (l : List (NodeId × NodeId)) (g0 : CiteNet ι), l.foldl (fun w' p => bumpEdge w w' p.1 p.2) g0 =
      run w (fun t _ => t) g0 (l.map (fun p => Ev.edge p.1 p.2)) := by
    intro l
    induction l with
    | nil => intro g0; rfl
    | cons p l ih => intro g0; exact ih _
  simp only [h2]
  exact foldl_run _ _ _ _ _

theorem count_nodup (l : List NodeId) (h : l.Nodup) (u : NodeId) : l.count u = if u ∈ l then 1 else 0 := by
  split
  · exact List.count_eq_one_of_mem h ‹_›
  · exact List.count_eq_zero_of_not_mem ‹_›

theorem couple_edges (w : Bool) (inCore : ι → Bool) (order : List NodeId) {g : CiteNet ι} (hg : g.WF)
    (hd : g.directed = true) (u v : NodeId) :
    (couple w inCore order g).edge? u v = if u = v then none else
      edgeFor w (order.countP (fun n => g.hasEdge u n && g.hasEdge v n)) := by
  rw [couple_run, (run_spec w false _ _).2.2.1]
  have : (coupleEvs inCore order g).countP (Ev.isEdge false u v) =
      if u = v then 0 else order.countP (fun n => g.hasEdge u n && g.hasEdge v n) := by
    unfold coupleEvs
    rw [List.countP_append, sum_map_countP, List.countP_map]
    have h0 : (g.nodes.filter (fun nd => inCore nd.2.info)).countP
        (Ev.isEdge false u v ∘ fun nd => (Ev.node nd.1 nd.2 : Ev NodeId (CoAttr ι))) = 0 := by
      rw [List.countP_eq_zero]; intro a _; simp [Ev.isEdge]
    rw [h0, Nat.zero_add]
    have h1 : ∀ n, ((pairs (inSources g n)).map (fun p => (Ev.edge p.1 p.2 : Ev NodeId (CoAttr ι)))).countP
        (Ev.isEdge false u v) = if u = v then 0 else if g.hasEdge u n && g.hasEdge v n then 1 else 0 := by
      intro n
      rw [List.countP_map]
      have : (Ev.isEdge false u v ∘ fun p : NodeId × NodeId => (Ev.edge p.1 p.2 : Ev NodeId (CoAttr ι))) =
        fun p => sameEdge false p (u, v) := by funext p; rfl
      rw [this, countP_pairs]
      unfold pairsShared
      rw [count_nodup _ (nodup_inSources hg hd n), count_nodup _ (nodup_inSources hg hd n)]
      simp only [mem_inSources hd]
      by_cases huv : u = v
      · simp only [huv, if_true]; split <;> rfl
      · simp only [huv, if_false]
        cases g.hasEdge u n <;> cases g.hasEdge v n <;> rfl
    simp only [h1]
    by_cases huv : u = v
    · simp only [huv, if_true]
      rw [sum_eq_zero_iff]; intro x hx; obtain ⟨_, _, rfl⟩ := List.mem_map.1 hx; rfl
    · simp only [huv, if_false]
      clear h0 h1
      induction order with
      | nil => rfl
      | cons n l ih =>
        rw [List.map_cons, List.sum_cons, ih, List.countP_cons, Nat.add_comm]
  rw [this]
  by_cases huv : u = v
  · simp [huv, weightOf]
  · simp only [huv, if_false]; rfl

/-- The records that have citations. -/
def withCitations (cites : ρ → Option (List Cite)) (recs : List ρ) : List ρ :=
  recs.filter (fun r => !((cites r).getD []).isEmpty)

/-- A record with the identifying string `u` cites the work `n`. -/
def citesWork (own : ρ → Cite) (cites : ρ → Option (List Cite)) (recs : List ρ) (u n : NodeId) : Bool :=
  recs.any (fun r => decide (NodeId.str (own r).id = u) && decide (n ∈ ((cites r).getD []).map (fun c => NodeId.str c.id)))

theorem coupling_citing (env : Env) (own : ρ → Cite) (cites : ρ → Option (List Cite)) (recs : List ρ) :
    citing env couplingOpts own cites recs = withCitations cites recs := by
  rw [citing_eq]
  unfold citingM withCitations
  congr 1
  funext r
  have : own r ∈ filterCites env couplingOpts.nodeType couplingOpts.dropAnon couplingOpts.dropNonJournals
      couplingOpts.keyWords (if couplingOpts.coreOnly then some (recs.map own) else none) [own r] := by
    rw [filterCites_eq, List.mem_filter, keepB_iff]
    exact ⟨by simp, by simp [couplingOpts, emptyAttr], by simp [couplingOpts], by simp [couplingOpts],
      by simp [couplingOpts], by simp [couplingOpts, KeyWords.toList]⟩
  simp only [this, decide_true, Bool.true_and]

theorem coupling_kept (env : Env) (own : ρ → Cite) (cites : ρ → Option (List Cite)) (recs : List ρ) (r : ρ) :
    keptCites env couplingOpts own cites recs r = (cites r).getD [] := by
  rw [keptCites_eq]
  unfold keptM
  rw [filterCites_eq, List.filter_eq_self]
  intro c _
  rw [keepB_iff]
  exact ⟨by simp [couplingOpts, emptyAttr], by simp [couplingOpts], by simp [couplingOpts],
      by simp [couplingOpts], by simp [couplingOpts, KeyWords.toList]⟩

/-- The works that occur: each record with citations, followed by what it cites. -/
def occurring (own : ρ → Cite) (cites : ρ → Option (List Cite)) (recs : List ρ) : List Cite :=
  recs.flatMap (fun r => if (cites r).getD [] = [] then [] else own r :: (cites r).getD [])

theorem occurring_eq (own : ρ → Cite) (cites : ρ → Option (List Cite)) (recs : List ρ) :
    occurring own cites recs =
      ((withCitations cites recs).flatMap (fun r => (true, own r) :: ((cites r).getD []).map (fun c => (false, c)))).map Prod.snd := by
  unfold occurring withCitations
  induction recs with
  | nil => rfl
  | cons r l ih =>
    rw [List.flatMap_cons, ih, List.filter_cons]
    cases h : (cites r).getD [] with
    | nil => simp
    | cons c cs => simp [h, List.map_map, Function.comp_def]

theorem mem_occurring (own : ρ → Cite) (cites : ρ → Option (List Cite)) (recs : List ρ) (c : Cite) :
    c ∈ occurring own cites recs ↔ ∃ r ∈ recs, (cites r).getD [] ≠ [] ∧ (c = own r ∨ c ∈ (cites r).getD []) := by
  unfold occurring
  rw [List.mem_flatMap]
  constructor
  · rintro ⟨r, hr, h⟩
    split at h
    · simp at h
    · rename_i hne; exact ⟨r, hr, hne, List.mem_cons.1 h⟩
  · rintro ⟨r, hr, hne, h⟩
    exact ⟨r, hr, by rw [if_neg hne]; exact List.mem_cons.2 h⟩

/-- The citation network `networkBibCoupling` starts from. -/
theorem coupling_graph (env : Env) (info : Cite → ι) (own : ρ → Cite) (cites : ρ → Option (List Cite)) (recs : List ρ)
    (hown : ∀ r ∈ recs, (own r).id ≠ [] ∧ (own r).year ≠ none) :
    ∃ g, networkCitation env couplingOpts true true info own cites recs = .ok g ∧ g.WF ∧ g.directed = true ∧
      (∀ u v, g.hasEdge u v = citesWork own cites recs u v) ∧
      (∀ n, g.node? n = ((occurring own cites recs).find? (fun c => decide (NodeId.str c.id = n))).map (fun c => ⟨none, info c⟩)) ∧
      (∀ n, g.hasNode n = true ↔ ∃ r ∈ recs, (cites r).getD [] ≠ [] ∧
        (NodeId.str (own r).id = n ∨ n ∈ ((cites r).getD []).map (fun c => NodeId.str c.id))) := by
  obtain ⟨g, h1, h2, h3, h4, h5⟩ := C17_citation_partial env couplingOpts true true info own cites recs
    (Or.inl ⟨Or.inl rfl, Or.inr rfl⟩) (fun r hr => ⟨trivial, (hown r hr).2⟩) (fun _ r hr => (hown r hr).1)
    (fun _ _ _ _ => trivial)
  rw [coupling_citing] at h4 h5
  simp only [coupling_kept] at h4 h5
  have hnn : ∀ c, nodeName couplingOpts.nodeType c = NodeId.str c.id := fun _ => rfl
  refine ⟨g, h1, h2, h3, fun u v => ?_, fun n => ?_, fun n => ?_⟩
  · unfold hasEdge
    rw [h4, Bool.eq_iff_iff]
    unfold edgeFor citesWork
    rw [List.any_eq_true]
    split
    · rename_i h0
      rw [sum_eq_zero_iff] at h0
      simp only [Option.isSome_none, Bool.false_eq_true, false_iff]
      rintro ⟨r, hr, hb⟩
      simp only [Bool.and_eq_true, decide_eq_true_eq] at hb
      have hne : (cites r).getD [] ≠ [] := by intro h; rw [h] at hb; simp at hb
      have := h0 _ (List.mem_map.2 ⟨r, by
        unfold withCitations; rw [List.mem_filter]; exact ⟨hr, by simpa using hne⟩, rfl⟩)
      unfold headLinks at this
      simp only [if_true, hnn, hb.1] at this
      exact (List.count_pos_iff.2 hb.2).ne' this
    · rename_i h0
      simp only [Option.isSome_some, true_iff]
      by_contra hn
      apply h0
      rw [sum_eq_zero_iff]
      intro x hx
      obtain ⟨r, hr, rfl⟩ := List.mem_map.1 hx
      unfold withCitations at hr
      rw [List.mem_filter] at hr
      unfold headLinks
      simp only [if_true, hnn]
      split
      · rename_i hu
        rw [List.count_eq_zero]
        intro hv
        exact hn ⟨r, hr.1, by simp only [hu, decide_true, Bool.true_and, decide_eq_true_eq]; exact hv⟩
      · rfl
  · rw [h5, occurring_eq, List.find?_map, Option.map_map]
    rfl
  · unfold hasNode
    rw [h5, Option.isSome_map, List.find?_isSome]
    simp only [List.mem_flatMap, hnn, decide_eq_true_eq]
    constructor
    · rintro ⟨p, ⟨r, hr, hp⟩, hn⟩
      unfold withCitations at hr
      rw [List.mem_filter] at hr
      refine ⟨r, hr.1, by simpa using hr.2, ?_⟩
      rcases List.mem_cons.1 hp with rfl | hp
      · exact Or.inl hn
      · obtain ⟨c, hc, rfl⟩ := List.mem_map.1 hp
        exact Or.inr (List.mem_map.2 ⟨c, hc, hn⟩)
    · rintro ⟨r, hr, hne, h | h⟩
      · exact ⟨(true, own r), ⟨r, by unfold withCitations; rw [List.mem_filter]; exact ⟨hr, by simpa using hne⟩, by simp⟩, h⟩
      · obtain ⟨c, hc, hcn⟩ := List.mem_map.1 h
        exact ⟨(false, c), ⟨r, by unfold withCitations; rw [List.mem_filter]; exact ⟨hr, by simpa using hne⟩, by simp [hc]⟩, hcn⟩

theorem onNode_keeps (m : NodeId) (a : CoAttr ι) (es : List (Ev NodeId (CoAttr ι))) (h : ∀ e ∈ es, ∃ u v, e = .edge u v) :
    es.foldl (Ev.onNode (fun t _ => t) m) (some a) = some a := by
  induction es with
  | nil => rfl
  | cons e es ih =>
    obtain ⟨u, v, rfl⟩ := h e (by simp)
    rw [List.foldl_cons]
    have : Ev.onNode (fun (t : CoAttr ι) _ => t) m (some a) (Ev.edge u v) = some a := by simp [Ev.onNode]
    rw [this]
    exact ih (fun x hx => h x (by simp [hx]))

theorem onNode_listed (o : Option (CoAttr ι)) (nds : List (NodeId × CoAttr ι)) (hn : nds.Pairwise (fun a b => a.1 ≠ b.1))
    (m : NodeId) (a : CoAttr ι) (hm : (m, a) ∈ nds) :
    (nds.map (fun nd => Ev.node nd.1 nd.2)).foldl (Ev.onNode (fun t _ => t) m) o = some a := by
  induction nds generalizing o with
  | nil => simp at hm
  | cons nd nds ih =>
    obtain ⟨h1, h2⟩ := List.pairwise_cons.1 hn
    rw [List.map_cons, List.foldl_cons]
    rcases List.mem_cons.1 hm with hm | hm
    · subst hm
      have e1 : Ev.onNode (fun (t : CoAttr ι) _ => t) m o (Ev.node m a) = some a := by simp [Ev.onNode]
      rw [e1]
      have : ∀ (l : List (NodeId × CoAttr ι)), (∀ x ∈ l, m ≠ x.1) →
          (l.map (fun nd => Ev.node nd.1 nd.2)).foldl (Ev.onNode (fun (t : CoAttr ι) _ => t) m) (some a) = some a := by
        intro l
        induction l with
        | nil => intro _; rfl
        | cons x l ihl =>
          intro hl
          rw [List.map_cons, List.foldl_cons]
          have e2 : Ev.onNode (fun (t : CoAttr ι) _ => t) m (some a) (Ev.node x.1 x.2) = some a := by
            simp [Ev.onNode, Ne.symm (hl x (by simp))]
          rw [e2]
          exact ihl (fun y hy => hl y (by simp [hy]))
      exact this nds h1
    · exact ih _ h2 hm

/-- All the works the records cite, each once. -/
def citedWorks (cites : ρ → Option (List Cite)) (recs : List ρ) : List NodeId :=
  (recs.flatMap (fun r => ((cites r).getD []).map (fun c => NodeId.str c.id))).dedup

/-- C18: two different records are joined exactly when they cite a common work, with weight the number of different works
both cite, whatever the order in which the works are visited; no record is joined to itself. A node stands for a work in the
collection (the hash of its identifying string is that of a record) that has citations itself or is cited by a record; its
attributes are those of the first place at which the work occurs, without a count. -/
theorem C18_coupling (env : Env) (weighted : Bool) (info : Cite → ι) (inCore : ι → Bool) (own : ρ → Cite)
    (cites : ρ → Option (List Cite)) (recs : List ρ) (shuffle : List NodeId → List NodeId)
    (hsh : ∀ l, (shuffle l).Perm l)
    (hcore : ∀ c, inCore (info c) = recs.any (fun r => decide (env.hash (own r).id = env.hash c.id)))
    (hown : ∀ r ∈ recs, (own r).id ≠ [] ∧ (own r).year ≠ none) :
    ∃ g, networkBibCoupling env weighted inCore shuffle info own cites recs = .ok g ∧ g.WF ∧ g.directed = false ∧
      (∀ u v, u ≠ v → g.edge? u v = edgeFor weighted ((citedWorks cites recs).countP (fun n =>
        citesWork own cites recs u n && citesWork own cites recs v n))) ∧
      (∀ u, g.edge? u u = none) ∧
      (∀ s, g.hasNode (.str s) = true ↔ (∃ r ∈ recs, env.hash (own r).id = env.hash s) ∧
        ∃ r ∈ recs, (cites r).getD [] ≠ [] ∧ ((own r).id = s ∨ s ∈ ((cites r).getD []).map (fun c => c.id))) ∧
      (∀ s, g.hasNode (.str s) = true → g.node? (.str s) =
        ((occurring own cites recs).find? (fun c => decide (c.id = s))).map (fun c => ⟨none, info c⟩)) ∧
      (∀ n, g.hasNode (.num n) = false) := by
  obtain ⟨g, h1, h2, h3, h4, h5, h6⟩ := coupling_graph env info own cites recs hown
  let order := shuffle (couplingSet g)
  have hg : networkBibCoupling env weighted inCore shuffle info own cites recs = .ok (couple weighted inCore order g) := by
    unfold networkBibCoupling; rw [h1]; rfl
  have hrun := run_spec weighted false (fun t _ => t) (coupleEvs inCore order g)
  rw [← couple_run] at hrun
  have hkey : ∀ m, (couple weighted inCore order g).hasNode m = true → ∃ a, (m, a) ∈ g.nodes ∧ inCore a.info = true := by
    intro m hm
    unfold hasNode at hm
    rw [hrun.2.2.2, onNode_isSome] at hm
    simp only [Option.isSome_none, Bool.false_eq_true, false_or] at hm
    obtain ⟨e, he, hm⟩ := hm
    unfold coupleEvs at he
    rcases List.mem_append.1 he with he | he
    · obtain ⟨nd, hnd, rfl⟩ := List.mem_map.1 he
      rw [List.mem_filter] at hnd
      simp only [Ev.mentions, decide_eq_true_eq] at hm
      exact ⟨nd.2, by rw [← hm]; exact hnd.1, hnd.2⟩
    · obtain ⟨n, _, he⟩ := List.mem_flatMap.1 he
      obtain ⟨p, hp, rfl⟩ := List.mem_map.1 he
      have hp2 := pairs_mem _ p hp
      simp only [Ev.mentions, decide_eq_true_eq] at hm
      have hs : m ∈ inSources g n := by
        rcases hm with hm | hm
        · rw [← hm]; exact hp2.1
        · rw [← hm]; exact hp2.2
      rw [mem_inSources h3] at hs
      have hn := (h2.ends_of_edge? hs).1
      rw [h4] at hs
      unfold citesWork at hs
      rw [List.any_eq_true] at hs
      obtain ⟨r, hr, hb⟩ := hs
      simp only [Bool.and_eq_true, decide_eq_true_eq] at hb
      unfold hasNode at hn
      obtain ⟨a, ha⟩ := Option.isSome_iff_exists.1 hn
      refine ⟨a, by unfold node? at ha; rwa [Dict.get?_eq_some_iff h2.nodes] at ha, ?_⟩
      rw [h5] at ha
      obtain ⟨c, hc, rfl⟩ := Option.map_eq_some_iff.1 ha
      have := List.find?_some hc
      simp only [decide_eq_true_eq] at this
      rw [hcore, List.any_eq_true]
      refine ⟨r, hr, ?_⟩
      rw [← hb.1] at this
      simp only [NodeId.str.injEq] at this
      simp [this]
  refine ⟨_, hg, hrun.1, hrun.2.1, fun u v huv => ?_, fun u => ?_, fun s => ?_, fun s hs => ?_, fun n => ?_⟩
  · rw [couple_edges weighted inCore order h2 h3, if_neg huv]
    congr 1
    rw [(hsh (couplingSet g)).countP_eq]
    simp only [h4]
    rw [List.countP_eq_length_filter, List.countP_eq_length_filter]
    apply List.Perm.length_eq
    rw [List.perm_ext_iff_of_nodup]
    · intro n
      simp only [List.mem_filter, Bool.and_eq_true]
      constructor
      · rintro ⟨_, h⟩
        refine ⟨?_, h⟩
        unfold citedWorks
        rw [List.mem_dedup, List.mem_flatMap]
        have := h.1
        unfold citesWork at this
        rw [List.any_eq_true] at this
        obtain ⟨r, hr, hb⟩ := this
        simp only [Bool.and_eq_true, decide_eq_true_eq] at hb
        exact ⟨r, hr, hb.2⟩
      · rintro ⟨_, h⟩
        refine ⟨?_, h⟩
        have he : g.hasEdge u n = true := by rw [h4]; exact h.1
        unfold couplingSet
        rw [List.mem_filter]
        refine ⟨?_, ?_⟩
        · have := (h2.ends_of_edge? he).2
          unfold hasNode node? at this
          rw [Dict.mem_keys_iff]; exact this
        · have := (mem_inSources h3 u n).2 he
          cases hi : inSources g n with
          | nil => rw [hi] at this; simp at this
          | cons _ _ => rfl
    · refine List.Nodup.filter _ ?_
      unfold couplingSet
      refine List.Nodup.filter _ ?_
      exact h2.nodes
    · exact List.Nodup.filter _ (List.nodup_dedup _)
  · rw [couple_edges weighted inCore order h2 h3, if_pos rfl]
  · unfold hasNode
    rw [hrun.2.2.2, onNode_isSome]
    simp only [Option.isSome_none, Bool.false_eq_true, false_or]
    have hnode : ∀ a, (NodeId.str s, a) ∈ g.nodes ↔ g.node? (.str s) = some a := by
      intro a; unfold node?; rw [Dict.get?_eq_some_iff h2.nodes]
    have hin : ∀ a, g.node? (.str s) = some a → (inCore a.info = true ↔ ∃ r ∈ recs, env.hash (own r).id = env.hash s) := by
      intro a ha
      rw [h5] at ha
      obtain ⟨c, hc, rfl⟩ := Option.map_eq_some_iff.1 ha
      have hc := List.find?_some hc
      simp only [decide_eq_true_eq] at hc
      rw [hcore, List.any_eq_true]
      simp only [NodeId.str.injEq] at hc
      subst hc
      simp only [decide_eq_true_eq]
    have hmem : (∃ r ∈ recs, (cites r).getD [] ≠ [] ∧ ((own r).id = s ∨ s ∈ ((cites r).getD []).map (fun c => c.id))) ↔
        g.hasNode (.str s) = true := by
      rw [h6]
      simp only [NodeId.str.injEq, List.mem_map]
    rw [hmem]
    constructor
    · rintro ⟨e, he, hm⟩
      unfold coupleEvs at he
      rcases List.mem_append.1 he with he | he
      · obtain ⟨nd, hnd, rfl⟩ := List.mem_map.1 he
        rw [List.mem_filter] at hnd
        simp only [Ev.mentions, decide_eq_true_eq] at hm
        have ha := (hnode nd.2).1 (by rw [← hm]; exact hnd.1)
        exact ⟨(hin _ ha).1 hnd.2, by unfold hasNode; rw [ha]; rfl⟩
      · obtain ⟨n, _, he⟩ := List.mem_flatMap.1 he
        obtain ⟨p, hp, rfl⟩ := List.mem_map.1 he
        have hp2 := pairs_mem _ p hp
        simp only [Ev.mentions, decide_eq_true_eq] at hm
        have hs : NodeId.str s ∈ inSources g n := by
          rcases hm with hm | hm
          · rw [← hm]; exact hp2.1
          · rw [← hm]; exact hp2.2
        rw [mem_inSources h3] at hs
        refine ⟨?_, (h2.ends_of_edge? hs).1⟩
        rw [h4] at hs
        unfold citesWork at hs
        rw [List.any_eq_true] at hs
        obtain ⟨r, hr, hb⟩ := hs
        simp only [Bool.and_eq_true, decide_eq_true_eq, NodeId.str.injEq] at hb
        exact ⟨r, hr, by rw [hb.1]⟩
    · rintro ⟨hc, hn⟩
      unfold hasNode at hn
      obtain ⟨a, ha⟩ := Option.isSome_iff_exists.1 hn
      refine ⟨Ev.node (.str s) a, ?_, by simp [Ev.mentions]⟩
      unfold coupleEvs
      apply List.mem_append_left
      exact List.mem_map.2 ⟨(.str s, a), by rw [List.mem_filter]; exact ⟨(hnode a).2 ha, (hin a ha).2 hc⟩, rfl⟩
  · obtain ⟨a, ha, hin⟩ := hkey _ hs
    have hga : g.node? (.str s) = some a := by unfold node?; rwa [Dict.get?_eq_some_iff h2.nodes]
    rw [hrun.2.2.2]
    unfold coupleEvs
    rw [List.foldl_append, onNode_listed _ _ (List.Pairwise.filter _ (List.pairwise_map.1 h2.nodes))
      (.str s) a (List.mem_filter.2 ⟨ha, hin⟩), onNode_keeps]
    · rw [← hga, h5]
      simp only [NodeId.str.injEq]
    · intro e he
      obtain ⟨n, _, he⟩ := List.mem_flatMap.1 he
      obtain ⟨p, _, rfl⟩ := List.mem_map.1 he
      exact ⟨_, _, rfl⟩
  · by_contra hn
    obtain ⟨a, ha, _⟩ := hkey (.num n) (by simpa using hn)
    have hga : g.node? (.num n) = some a := by unfold node?; rwa [Dict.get?_eq_some_iff h2.nodes]
    rw [h5] at hga
    obtain ⟨c, hc, _⟩ := Option.map_eq_some_iff.1 hga
    have := List.find?_some hc
    simp at this

private def cc (id : String) : Cite where
  id := id.toList
  original := id.toList
  author := some none
  year := some (some 1990)
  journal := some none
  V := some none
  P := some none
  misc := some none
  bad := false

private def envB : Env where
  upper := fun s => s
  isJournal := fun _ => true
  hash := fun s => s.foldl (fun n c => n * 256 + c.toNat) 7
private def ownB (r : Nat) : Cite := if r = 0 then cc "R0" else if r = 1 then cc "R1" else cc "R2"
private def citesB (r : Nat) : Option (List Cite) :=
  if r = 0 then some [cc "A", cc "B", cc "A"] else if r = 1 then some [cc "B", cc "A", cc "R0"] else none

example : ∃ g, networkBibCoupling envB true (fun s => s == "R0".toList || s == "R1".toList || s == "R2".toList)
    List.reverse (fun c => c.id) ownB citesB [0, 1, 2] = .ok g ∧
    g.edge? (.str "R0".toList) (.str "R1".toList) = some (some 2) ∧ g.hasNode (.str "R0".toList) = true ∧
    g.hasNode (.str "R2".toList) = false ∧ g.hasNode (.str "A".toList) = false ∧
    (∀ r ∈ [0, 1, 2], (ownB r).id ≠ [] ∧ (ownB r).year ≠ none) := by
  refine ⟨_, rfl, ?_⟩
  decide

end Verif.Props
