import Verif.Lemmas.YearDiff
import Verif.Props.CiteParse

/-! # C95: the years between citing and cited works -/
set_option autoImplicit false
set_option linter.unusedSectionVars false
set_option linter.unusedSimpArgs false
namespace Verif.Props.YearDiff
open Verif.Py Verif.Py.Graph Verif.Model.Citation Verif.Model.CoNetworks Verif.Model.CiteNetworks Verif.Model.YearDiff
  Verif.Spec Verif.Spec.YearDiff Verif.Lemmas.YearDiff Verif.Props Verif.Props.CiteParse Verif.Model.CiteParse

variable {ρ ι : Type} [Inhabited ι]

theorem yearDiff_eq (a c : Cite) : yearDiff a c = yearsBetween a c := by
  unfold yearDiff yearsBetween yearOf
  rcases a.year with _ | _ | x
  · rfl
  · rfl
  · rcases c.year with _ | _ | y
    · rfl
    · rfl
    · simp only [Option.getD_some, Option.bind_some, Option.map_some, Option.some.injEq]
      omega

theorem yearsBetween_comm (a c : Cite) : yearsBetween a c = yearsBetween c a := by
  unfold yearsBetween
  rcases yearOf a with _ | x <;> rcases yearOf c with _ | y
  · rfl
  · rfl
  · rfl
  · simp only [Option.bind_some, Option.map_some, Option.some.injEq, max_comm, min_comm]

theorem along_iff (nt : NodeType) (d rtc : Bool) (u v : NodeId) (p : Cite × Cite) :
    sameEdge d (linkOf rtc (nodeName nt p.1) (nodeName nt p.2, yearDiff p.1 p.2)).1 (u, v) = true ↔ Along nt d rtc u v p := by
  rw [sameEdge_iff]
  unfold Along linkOf
  cases rtc <;> simp [Prod.ext_iff]

/-- **C95, the network is the same.** The networks of `Model/CiteNetworks`, of which C17 speaks, are these ones with the weights of the edges only, for all options. -/
theorem C95_same_network (env : Env) (o : Opts) (directed recordToCite : Bool) (info : Cite → ι) (own : ρ → Cite)
    (cites : ρ → Option (List Cite)) (recs : List ρ) :
    (Model.YearDiff.networkCitation env o directed recordToCite info own cites recs).map
        (fun g => (⟨g.directed, g.nodes, g.edges.map (fun e => (e.1, e.2.weight))⟩ : CiteNet ι)) =
      Model.CiteNetworks.networkCitation env o directed recordToCite info own cites recs :=
  network_weights env o directed recordToCite info own cites recs

/-- **C95, the first citation.** In a weighted network of full or original citations an edge is there exactly when a citation goes along it. Its weight is their
number. Its `yearDiff` is the number of years between the two works of the first of them, `None` when a year is not known. Missing from the full claim: records without an
identifying string; and works with one node and several years, where the value depends on the order. -/
theorem C95_first_partial (env : Env) (o : Opts) (directed recordToCite : Bool) (info : Cite → ι) (own : ρ → Cite)
    (cites : ρ → Option (List Cite)) (recs : List ρ) (hnt : o.nodeType = .full ∨ o.nodeType = .original) (hw : o.weighted = true)
    (hown : ∀ r ∈ recs, (own r).year ≠ none) (hid : o.nodeType = .full → ∀ r ∈ recs, (own r).id ≠ []) :
    ∃ g, Model.YearDiff.networkCitation env o directed recordToCite info own cites recs = .ok g ∧ g.directed = directed ∧
      ∀ u v, g.edge? u v = ((citations env o own cites recs).find? (fun p => decide (Along o.nodeType directed recordToCite u v p))).map (fun p =>
        ⟨some ((citations env o own cites recs).countP (fun p => decide (Along o.nodeType directed recordToCite u v p))), some (yearsBetween p.1 p.2)⟩) := by
  have hbase : Holds directed (Graph.empty directed : YearNet ι) [] := ⟨rfl, fun u v => rfl⟩
  obtain ⟨g, hg, hd, he⟩ := foldlM_holds directed (fun g r =>
    if (keep env o own recs [own r]).length == 0 then .ok g
    else
      match cites r with
      | none => .ok g
      | some [] => .ok g
      | some cs => Model.YearDiff.addToNetwork o.nodeType o.count o.weighted recordToCite info (own r) (keep env o own recs cs) g)
    (fun r => if decide (own r ∈ keep env o own recs [own r]) && !((cites r).getD []).isEmpty
      then linksOf o.nodeType recordToCite (own r) (keptM env o own cites recs r) else []) recs (by
      intro r hr es g hg
      rw [keep_single]
      by_cases hk : own r ∈ keep env o own recs [own r]
      · simp only [hk, decide_true, Bool.not_true, Bool.false_eq_true, if_false, Bool.true_and]
        rcases hc : cites r with _ | _ | ⟨c, cs⟩
        · exact ⟨g, rfl, by simpa using hg⟩
        · exact ⟨g, rfl, by simpa using hg⟩
        · have e : keep env o own recs (c :: cs) = keptM env o own cites recs r := by simp only [keptM, hc]; rfl
          simp only [e, hw, Option.getD_some, List.isEmpty_cons, Bool.not_false, if_true]
          have hattr : HasAttr o.nodeType (own r) := by rcases hnt with h | h <;> rw [h] <;> trivial
          refine add_holds o.nodeType hnt _ _ _ _ _ _ (hown r hr) ?_ es g hg
          have hv := kept_value hk hattr
          rcases hnt with h | h
          · have := hid h r hr
            rw [h]
            simp only [nodeName, NodeId.truthy]
            cases h' : (own r).id with
            | nil => exact absurd h' this
            | cons _ _ => rfl
          · rw [h] at hv ⊢
            simp only [HasValue] at hv
            simp only [nodeName, NodeId.truthy]
            cases h' : (own r).original with
            | nil => exact absurd h' hv
            | cons _ _ => rfl
      · refine ⟨g, by simp [hk], by simpa [hk] using hg⟩) [] (Graph.empty directed) hbase
  refine ⟨g, hg, hd, fun u v => ?_⟩
  have hl : recs.flatMap (fun r => if decide (own r ∈ keep env o own recs [own r]) && !((cites r).getD []).isEmpty
      then linksOf o.nodeType recordToCite (own r) (keptM env o own cites recs r) else []) =
      (citations env o own cites recs).map (fun p => linkOf recordToCite (nodeName o.nodeType p.1) (nodeName o.nodeType p.2, yearDiff p.1 p.2)) := by
    rw [flatMap_if]
    unfold citations
    rw [keptCites_eq, citing_eq, List.map_flatMap]
    simp only [List.map_map, Function.comp_def]
    rfl
  have hal : ∀ p : Cite × Cite, sameEdge directed (linkOf recordToCite (nodeName o.nodeType p.1) (nodeName o.nodeType p.2, yearDiff p.1 p.2)).1 (u, v) =
      decide (Along o.nodeType directed recordToCite u v p) := by
    intro p
    rw [Bool.eq_iff_iff, along_iff]; simp
  rw [he, List.nil_append, hl]
  unfold after
  rw [List.find?_map, List.countP_map, Option.map_map]
  simp only [Function.comp_def, hal]
  simp only [linkOf, yearDiff_eq]

/-- **C95, works of one year.** When works with the same node have the same year, the `yearDiff` of an edge is the number of years between any work at its start and
any work at its end. -/
theorem C95_years_partial (env : Env) (o : Opts) (directed recordToCite : Bool) (info : Cite → ι) (own : ρ → Cite)
    (cites : ρ → Option (List Cite)) (recs : List ρ) (hnt : o.nodeType = .full ∨ o.nodeType = .original) (hw : o.weighted = true)
    (hown : ∀ r ∈ recs, (own r).year ≠ none) (hid : o.nodeType = .full → ∀ r ∈ recs, (own r).id ≠ []) (hone : OneYear env o own cites recs) :
    ∃ g, Model.YearDiff.networkCitation env o directed recordToCite info own cites recs = .ok g ∧
      (∀ u v, g.hasEdge u v = true ↔ ∃ p ∈ citations env o own cites recs, Along o.nodeType directed recordToCite u v p) ∧
      ∀ u v e, g.edge? u v = some e →
        e.weight = some ((citations env o own cites recs).countP (fun p => decide (Along o.nodeType directed recordToCite u v p))) ∧
        ∀ a c, Takes env o own cites recs a → Takes env o own cites recs c → nodeName o.nodeType a = u → nodeName o.nodeType c = v →
          e.yearDiff = some (yearsBetween a c) := by
  obtain ⟨g, hg, -, he⟩ := C95_first_partial env o directed recordToCite info own cites recs hnt hw hown hid
  refine ⟨g, hg, fun u v => ?_, fun u v e hev => ?_⟩
  · unfold hasEdge
    rw [he, Option.isSome_map, List.find?_isSome]
    simp
  · rw [he] at hev
    obtain ⟨p, hp, rfl⟩ := Option.map_eq_some_iff.mp hev
    refine ⟨rfl, fun a c ha hc hau hcv => ?_⟩
    have hmem := List.mem_of_find?_eq_some hp
    have hal : Along o.nodeType directed recordToCite u v p := by simpa using List.find?_some hp
    have h1 : Takes env o own cites recs p.1 := ⟨p, hmem, Or.inl rfl⟩
    have h2 : Takes env o own cites recs p.2 := ⟨p, hmem, Or.inr rfl⟩
    have key : ∀ x y : Cite, Takes env o own cites recs x → Takes env o own cites recs y → nodeName o.nodeType x = nodeName o.nodeType a →
        nodeName o.nodeType y = nodeName o.nodeType c → yearsBetween x y = yearsBetween a c := by
      intro x y hx hy hxa hyc
      unfold yearsBetween
      rw [hone x a hx ha hxa, hone y c hy hc hyc]
    show some (yearsBetween p.1 p.2) = some (yearsBetween a c)
    subst hau; subst hcv
    unfold Along at hal
    cases recordToCite
    · rcases hal with ⟨h, h'⟩ | ⟨-, h, h'⟩
      · rw [yearsBetween_comm, key _ _ h2 h1 h h']
      · rw [key _ _ h1 h2 h' h]
    · rcases hal with ⟨h, h'⟩ | ⟨-, h, h'⟩
      · rw [key _ _ h1 h2 h h']
      · rw [yearsBetween_comm, key _ _ h2 h1 h' h]

open Classical in
theorem citations_perm (env : Env) (o : Opts) (own : ρ → Cite) (cites : ρ → Option (List Cite)) (recs recs' : List ρ) (hp : recs.Perm recs') :
    (citations env o own cites recs).Perm (citations env o own cites recs') := by
  have hc : citing env o own cites recs' = recs'.filter (fun r => decide (Enters env o own recs (own r) ∧ (cites r).getD [] ≠ [])) := by
    unfold citing
    apply List.filter_congr
    intro r _
    have : Enters env o own recs' (own r) ↔ Enters env o own recs (own r) := by
      unfold Enters
      refine and_congr Iff.rfl (and_congr Iff.rfl (and_congr Iff.rfl (and_congr ?_ Iff.rfl)))
      simp only [hp.mem_iff]
    exact decide_eq_decide.2 (and_congr this Iff.rfl)
  unfold citations
  rw [keptCites_perm env o own cites recs recs' hp, hc]
  refine List.Perm.flatMap_right _ ?_
  unfold citing
  exact hp.filter _

/-- **C95, the order of the records.** When works with the same node have the same year, every edge has the same weight and the same `yearDiff` in whatever order the
records are visited. -/
theorem C95_order_partial (env : Env) (o : Opts) (directed recordToCite : Bool) (info : Cite → ι) (own : ρ → Cite)
    (cites : ρ → Option (List Cite)) (recs recs' : List ρ) (hp : recs.Perm recs') (hnt : o.nodeType = .full ∨ o.nodeType = .original) (hw : o.weighted = true)
    (hown : ∀ r ∈ recs, (own r).year ≠ none) (hid : o.nodeType = .full → ∀ r ∈ recs, (own r).id ≠ []) (hone : OneYear env o own cites recs) :
    ∃ g g', Model.YearDiff.networkCitation env o directed recordToCite info own cites recs = .ok g ∧
      Model.YearDiff.networkCitation env o directed recordToCite info own cites recs' = .ok g' ∧ ∀ u v, g.edge? u v = g'.edge? u v := by
  have hcp := citations_perm env o own cites recs recs' hp
  have htk : ∀ c, Takes env o own cites recs' c ↔ Takes env o own cites recs c := by
    intro c
    unfold Takes
    simp only [hcp.mem_iff]
  have hone' : OneYear env o own cites recs' := fun c d hc hd h => hone c d ((htk c).1 hc) ((htk d).1 hd) h
  obtain ⟨g, hg, -, he⟩ := C95_first_partial env o directed recordToCite info own cites recs hnt hw hown hid
  obtain ⟨g', hg', -, he'⟩ := C95_first_partial env o directed recordToCite info own cites recs' hnt hw
    (fun r hr => hown r (hp.mem_iff.2 hr)) (fun h r hr => hid h r (hp.mem_iff.2 hr))
  obtain ⟨g2, hg2, hx, hy⟩ := C95_years_partial env o directed recordToCite info own cites recs hnt hw hown hid hone
  obtain ⟨g2', hg2', hx', hy'⟩ := C95_years_partial env o directed recordToCite info own cites recs' hnt hw
    (fun r hr => hown r (hp.mem_iff.2 hr)) (fun h r hr => hid h r (hp.mem_iff.2 hr)) hone'
  rw [hg] at hg2; cases hg2
  rw [hg'] at hg2'; cases hg2'
  refine ⟨g, g', hg, hg', fun u v => ?_⟩
  have hsome : g.hasEdge u v = true ↔ g'.hasEdge u v = true := by
    rw [hx, hx']
    simp only [hcp.mem_iff]
  unfold hasEdge at hsome
  cases h1 : g.edge? u v with
  | none =>
    cases h2 : g'.edge? u v with
    | none => rfl
    | some e' => rw [h1, h2] at hsome; simp at hsome
  | some e =>
    cases h2 : g'.edge? u v with
    | none => rw [h1, h2] at hsome; simp at hsome
    | some e' =>
      obtain ⟨hwt, hyd⟩ := hy u v e h1
      obtain ⟨hwt', hyd'⟩ := hy' u v e' h2
      obtain ⟨p, hpm, hal⟩ := (hx u v).1 (by unfold hasEdge; rw [h1]; rfl)
      have hex : ∃ a c, Takes env o own cites recs a ∧ Takes env o own cites recs c ∧ nodeName o.nodeType a = u ∧ nodeName o.nodeType c = v := by
        unfold Along at hal
        have t1 : Takes env o own cites recs p.1 := ⟨p, hpm, Or.inl rfl⟩
        have t2 : Takes env o own cites recs p.2 := ⟨p, hpm, Or.inr rfl⟩
        cases recordToCite
        · rcases hal with ⟨h, h'⟩ | ⟨-, h, h'⟩
          · exact ⟨_, _, t2, t1, h, h'⟩
          · exact ⟨_, _, t1, t2, h', h⟩
        · rcases hal with ⟨h, h'⟩ | ⟨-, h, h'⟩
          · exact ⟨_, _, t1, t2, h, h'⟩
          · exact ⟨_, _, t2, t1, h', h⟩
      obtain ⟨a, c, ha, hc, hau, hcv⟩ := hex
      have e1 := hyd a c ha hc hau hcv
      have e2 := hyd' a c ((htk a).2 ha) ((htk c).2 hc) hau hcv
      obtain ⟨w, y⟩ := e
      obtain ⟨w', y'⟩ := e'
      dsimp only at hwt hwt' e1 e2
      rw [hwt, hwt', e1, e2, hcp.countP_eq]

/-- **C95, good citations.** Works read from citation strings that are not bad have one year for every id, so C95 holds for the node type `full`. -/
theorem C95_good_full (C : Chars) (env : Env) (o : Opts) (own : ρ → Cite) (cites : ρ → Option (List Cite)) (recs : List ρ) (hnt : o.nodeType = .full)
    (hgood : ∀ c, Takes env o own cites recs c → ∃ p, IsCitation C p ∧ p.cite = c ∧ c.bad = false) : OneYear env o own cites recs := by
  intro c d hc hd h
  obtain ⟨p, hp, rfl, bp⟩ := hgood c hc
  obtain ⟨q, hq, rfl, bq⟩ := hgood d hd
  rw [hnt] at h
  unfold yearOf
  rw [((C36_identity C p q hp hq bp bq).1 (by simpa [nodeName] using h)).2.1]

/-- **C95, original strings.** Works read from Web of Science citation strings, bad or not, have one year for every string, so C95 holds for the node type `original`. -/
theorem C95_good_original (C : Chars) (env : Env) (o : Opts) (own : ρ → Cite) (cites : ρ → Option (List Cite)) (recs : List ρ) (hnt : o.nodeType = .original)
    (hread : ∀ c, Takes env o own cites recs c → ∃ s p, parseWos C s = some p ∧ p.cite = c) : OneYear env o own cites recs := by
  intro c d hc hd h
  obtain ⟨s, p, hp, rfl⟩ := hread c hc
  obtain ⟨t, q, hq, rfl⟩ := hread d hd
  obtain ⟨p', hp', hs⟩ := C36_total C s
  obtain ⟨q', hq', ht⟩ := C36_total C t
  rw [hp] at hp'; cases hp'
  rw [hq] at hq'; cases hq'
  rw [hnt] at h
  have : s = t := by simpa [nodeName, hs, ht] using h
  subst this
  rw [hp] at hq; cases hq
  rfl

/-! ## Edges without the attribute -/

/-- No edge has a `yearDiff`. -/
def Bare (g : YearNet ι) : Prop := ∀ u v e, g.edge? u v = some e → e.yearDiff = none

theorem bare_setNode {g : YearNet ι} (h : Bare g) (n : NodeId) (a : CoAttr ι) : Bare (g.setNode n a) := by
  intro u v e he
  rw [edge?_setNode] at he
  exact h u v e he

theorem bare_setEdge {g : YearNet ι} (h : Bare g) (u v : NodeId) (b : EdgeData) (hb : b.yearDiff = none) : Bare (g.setEdge u v b) := by
  intro x y e he
  rw [edge?_setEdge] at he
  split at he
  · cases he; exact hb
  · exact h x y e he

theorem bare_bump {g : YearNet ι} (h : Bare g) (u v x y : NodeId) : Bare (bump g u v x y none) := by
  unfold bump
  split
  · rename_i w old he
    exact bare_setEdge h _ _ _ (h u v ⟨some w, old⟩ he)
  · refine bare_setEdge h _ _ _ ?_
    dsimp only [Option.none_or]
    cases he : g.edge? x y with
    | none => rfl
    | some e => exact h x y e he

theorem bare_foldl {γ : Type} (F : YearNet ι → γ → YearNet ι) (hF : ∀ g c, Bare g → Bare (F g c)) (l : List γ) (g : YearNet ι) (h : Bare g) : Bare (l.foldl F g) := by
  induction l generalizing g with
  | nil => exact h
  | cons a l ih => exact ih _ (hF g a h)

theorem bare_addEdges {g : YearNet ι} (h : Bare g) (es : List (NodeId × NodeId)) : Bare (Model.YearDiff.addEdges g es) := by
  refine bare_foldl _ (fun g e hg => ?_) es g h
  split
  · exact hg
  · exact bare_setEdge hg _ _ _ rfl

theorem bare_linkAll {g : YearNet ι} (h : Bare g) (w : Bool) (ids : List NodeId) : Bare (Model.YearDiff.linkAll w g ids) := by
  unfold Model.YearDiff.linkAll
  split
  · exact bare_foldl _ (fun g p hg => bare_bump hg _ _ _ _) _ g h
  · exact bare_addEdges h _

theorem bare_linkHead {g g' : YearNet ι} (h : Bare g) (whole w rtc : Bool) (hww : whole = false ∨ w = false) (hd : NodeId) (ids : List (NodeId × Option Nat))
    (hr : Model.YearDiff.linkHead whole w rtc g hd ids = .ok g') : Bare g' := by
  unfold Model.YearDiff.linkHead at hr
  cases whole <;> cases w
  · simp only [Bool.false_eq_true, if_false] at hr
    split at hr
    · cases hr
    · cases hr; exact h
  · simp only [Bool.false_eq_true, if_false, if_true] at hr
    cases hr
    refine bare_foldl _ (fun g p hg => ?_) _ g h
    split
    · exact bare_bump hg _ _ _ _
    · exact bare_bump hg _ _ _ _
  · simp only [Bool.false_eq_true, if_false, if_true] at hr
    cases hr
    exact bare_addEdges h _
  · simp at hww

theorem bare_add {g g' : YearNet ι} (h : Bare g) (nt : NodeType) (count w rtc : Bool) (hww : nt.whole = false ∨ w = false) (info : Cite → ι) (hd : Cite) (cs : List Cite)
    (hr : Model.YearDiff.addToNetwork nt count w rtc info hd cs g = .ok g') : Bare g' := by
  have hcited : ∀ (l : List (NodeId × ι)) (g : YearNet ι), Bare g → Bare (l.foldl (fun g n => Model.YearDiff.addCited count g n.1 n.2) g) := by
    intro l g hg
    refine bare_foldl _ (fun g n hg => ?_) l g hg
    dsimp only [Model.YearDiff.addCited]
    split
    · exact bare_setNode hg _ _
    · split
      · exact bare_setNode hg _ _
      · exact hg
  have hhead : ∀ n i, Bare (Model.YearDiff.addHead count g n i) := by
    intro n i
    unfold Model.YearDiff.addHead
    split
    · exact bare_setNode h _ _
    · exact h
  unfold Model.YearDiff.addToNetwork at hr
  cases hh : makeID nt hd with
  | error e => rw [hh] at hr; cases hr
  | ok n =>
    rw [hh] at hr
    cases hy : (nt.whole && hd.year.isNone)
    · cases hi : cs.mapM (makeID nt) with
      | error e => rw [hy, hi] at hr; cases hr
      | ok ids =>
        rw [hy, hi] at hr
        simp only [Bind.bind, Except.bind, Bool.false_eq_true, if_false] at hr
        split at hr
        · exact bare_linkHead (hcited _ _ (hhead _ _)) _ _ _ hww _ _ hr
        · cases hr
          exact bare_linkAll (hcited _ _ (hhead _ _)) _ _
    · rw [hy] at hr; cases hr

/-- **C95, other networks.** Without weights, and for the other node types, no edge has a `yearDiff`. -/
theorem C95_only_there (env : Env) (o : Opts) (directed recordToCite : Bool) (info : Cite → ι) (own : ρ → Cite)
    (cites : ρ → Option (List Cite)) (recs : List ρ) (ho : o.weighted = false ∨ (o.nodeType ≠ .full ∧ o.nodeType ≠ .original)) (g : YearNet ι)
    (hg : Model.YearDiff.networkCitation env o directed recordToCite info own cites recs = .ok g) (u v : NodeId) (e : EdgeData) (he : g.edge? u v = some e) :
    e.yearDiff = none := by
  have hww : o.nodeType.whole = false ∨ o.weighted = false := by
    rcases ho with h | ⟨h1, h2⟩
    · exact Or.inr h
    · left
      revert h1 h2
      cases o.nodeType <;> simp [NodeType.whole]
  have key : ∀ (l : List ρ) (g0 g : YearNet ι), Bare g0 → l.foldlM (fun g r =>
      if (keep env o own recs [own r]).length == 0 then (.ok g : Except NetErr (YearNet ι))
      else
        match cites r with
        | none => .ok g
        | some [] => .ok g
        | some cs => Model.YearDiff.addToNetwork o.nodeType o.count o.weighted recordToCite info (own r) (keep env o own recs cs) g) g0 = .ok g → Bare g := by
    intro l
    induction l with
    | nil => intro g0 g h0 h; cases h; exact h0
    | cons r l ih =>
      intro g0 g h0 h
      rw [List.foldlM_cons] at h
      by_cases hk : ((keep env o own recs [own r]).length == 0) = true
      · rw [if_pos hk] at h
        exact ih _ _ h0 h
      · rw [if_neg hk] at h
        revert h
        rcases cites r with _ | _ | ⟨c, cs⟩ <;> intro h
        · exact ih _ _ h0 h
        · exact ih _ _ h0 h
        · dsimp only at h
          cases ha : Model.YearDiff.addToNetwork o.nodeType o.count o.weighted recordToCite info (own r) (keep env o own recs (c :: cs)) g0 with
          | error e => rw [ha] at h; cases h
          | ok g1 =>
            rw [ha] at h
            exact ih _ _ (bare_add h0 _ _ _ _ hww _ _ _ ha) h
  exact key recs _ g (by intro u v e h; cases h) hg u v e he

/-! ## Examples and failures -/

/-- A way to read off a computed network. -/
def check (x : Except NetErr (YearNet Unit)) (P : YearNet Unit → Bool) : Bool :=
  match x with
  | .ok g => P g
  | .error _ => false

theorem check_ok {x : Except NetErr (YearNet Unit)} {P : YearNet Unit → Prop} [DecidablePred P] (h : check x (fun g => decide (P g)) = true) : ∃ g, x = .ok g ∧ P g := by
  cases x with
  | ok g => exact ⟨g, rfl, by simpa [check] using h⟩
  | error e => cases h

private def env0 : Env where
  upper := fun s => s.map Char.toUpper
  isJournal := fun _ => true
  hash := fun s => s.foldl (fun n c => n * 256 + c.toNat) 7

private def o (nt : NodeType) (w : Bool) : Opts := ⟨nt, false, false, .none, false, true, w⟩

private def cite (s : String) : Cite := (parsed s).cite

private def own0 (r : Nat) : Cite := if r = 0 then cite "COSTADEBO, 1974, CR ACAD SCI A MATH" else cite "COWAN JJ, 1977, J OPT SOC AM, V67"
private def cites0 (r : Nat) : Option (List Cite) :=
  if r = 0 then some [cite "GORDON JP, 1973, PHYS REV A", cite "SMITH, IN PRESS"] else
  some [cite "COSTADEBO, 1974, CR ACAD SCI A MATH, V3", cite "GOOS F, 1947, ANN PHYS-BERLIN, V1", cite "GOOS F., 1947, ANN PHYS-BERLIN, V1, P3"]

example : (∀ r ∈ [0, 1], (own0 r).year ≠ none ∧ (own0 r).id ≠ []) ∧
    ∃ g, Model.YearDiff.networkCitation env0 (o .full true) true true (fun _ => ()) own0 cites0 [0, 1] = .ok g ∧
      g.edge? (.str "Costadebo, 1974, CR ACAD SCI A MATH".toList) (.str "Gordon Jp, 1973, PHYS REV A".toList) = some ⟨some 1, some (some 1)⟩ ∧
      g.edge? (.str "Costadebo, 1974, CR ACAD SCI A MATH".toList) (.str "Smith, IN PRESS".toList) = some ⟨some 1, some none⟩ ∧
      g.edge? (.str "Cowan Jj, 1977, J OPT SOC AM".toList) (.str "Goos F, 1947, ANN PHYS-BERLIN".toList) = some ⟨some 2, some (some 30)⟩ ∧
      g.edge? (.str "Cowan Jj, 1977, J OPT SOC AM".toList) (.str "Costadebo, 1974, CR ACAD SCI A MATH".toList) = some ⟨some 1, some (some 3)⟩ :=
  ⟨by decide +kernel, check_ok (by decide +kernel)⟩

theorem takes_mem (env : Env) (o : Opts) (own : ρ → Cite) (cites : ρ → Option (List Cite)) (recs : List ρ) (c : Cite) (h : Takes env o own cites recs c) :
    ∃ r ∈ recs, c = own r ∨ c ∈ (cites r).getD [] := by
  obtain ⟨p, hp, hc⟩ := h
  unfold citations at hp
  obtain ⟨r, hr, hp⟩ := List.mem_flatMap.mp hp
  obtain ⟨x, hx, rfl⟩ := List.mem_map.mp hp
  refine ⟨r, List.mem_of_mem_filter hr, ?_⟩
  rcases hc with rfl | rfl
  · exact Or.inl rfl
  · exact Or.inr (List.mem_of_mem_filter hx)

private def cites1 (r : Nat) : Option (List Cite) := if r = 0 then some [cite "GORDON JP, 1973, PHYS REV A"] else cites0 1

private theorem one_year (nt : NodeType) (h : nt = .full ∨ nt = .original) : OneYear env0 (o nt true) own0 cites1 [0, 1] := by
  have hall : ∀ c, Takes env0 (o nt true) own0 cites1 [0, 1] c → ∃ s : String, cite s = c ∧ c.bad = false := by
    intro c hc
    obtain ⟨r, hr, h⟩ := takes_mem _ _ _ _ _ c hc
    simp only [List.mem_cons, List.not_mem_nil, or_false] at hr
    rcases hr with rfl | rfl
    · simp only [own0, cites1, if_true, Option.getD_some, List.mem_cons, List.not_mem_nil, or_false] at h
      rcases h with rfl | rfl <;> exact ⟨_, rfl, by decide +kernel⟩
    · simp only [own0, cites1, cites0, Nat.one_ne_zero, if_false, Option.getD_some, List.mem_cons, List.not_mem_nil, or_false] at h
      rcases h with rfl | rfl | rfl | rfl <;> exact ⟨_, rfl, by decide +kernel⟩
  rcases h with rfl | rfl
  · refine C95_good_full ascii env0 _ own0 cites1 [0, 1] rfl (fun c hc => ?_)
    obtain ⟨s, h1, h2⟩ := hall c hc
    exact ⟨_, parsed_citation s, h1, h2⟩
  · refine C95_good_original ascii env0 _ own0 cites1 [0, 1] rfl (fun c hc => ?_)
    obtain ⟨s, h1, -⟩ := hall c hc
    obtain ⟨p, hp, -⟩ := C36_total ascii s.toList
    exact ⟨s.toList, p, hp, by rw [← h1]; unfold cite parsed; rw [hp]; rfl⟩

/-- The hypotheses of the theorems above are met by records like those of the test of the attribute, for both node types. -/
example : OneYear env0 (o .full true) own0 cites1 [0, 1] ∧ OneYear env0 (o .original true) own0 cites1 [0, 1] ∧ [0, 1].Perm [1, 0] ∧
    ∃ g, Model.YearDiff.networkCitation env0 (o .original true) false false (fun _ => ()) own0 cites1 [1, 0] = .ok g ∧
      g.edge? (.str "COWAN JJ, 1977, J OPT SOC AM, V67".toList) (.str "GOOS F., 1947, ANN PHYS-BERLIN, V1, P3".toList) = some ⟨some 1, some (some 30)⟩ :=
  ⟨one_year _ (Or.inl rfl), one_year _ (Or.inr rfl), List.Perm.swap _ _ _, check_ok (by decide +kernel)⟩

/-- **C95 fails for works that share a node.** A work of 2000 without a journal and one without a year in the journal 2000 have the same id: the `yearDiff` of
the edge is 10 or `None`, whichever is cited first. The second is not known to be of the year 2000. -/
theorem C95_order_matters : ∃ (own : Nat → Cite) (cs : List Cite) (u v : NodeId) (g g' : YearNet Unit),
    (∀ c ∈ own 0 :: cs, ∃ p, IsCitation ascii p ∧ p.cite = c) ∧
    Model.YearDiff.networkCitation env0 (o .full true) true true (fun _ => ()) own (fun _ => some cs) [0] = .ok g ∧
    Model.YearDiff.networkCitation env0 (o .full true) true true (fun _ => ()) own (fun _ => some cs.reverse) [0] = .ok g' ∧
    g.edge? u v = some ⟨some 2, some (some 10)⟩ ∧ g'.edge? u v = some ⟨some 2, some none⟩ := by
  obtain ⟨g, hg, h⟩ := check_ok (x := Model.YearDiff.networkCitation env0 (o .full true) true true (fun _ => ()) (fun _ : Nat => cite "DOE J, 2010, NATURE")
    (fun _ => some [cite "SMITH J, 2000", cite "SMITH J, , 2000"]) [0])
    (P := fun g => g.edge? (.str "Doe J, 2010, NATURE".toList) (.str "Smith J, 2000".toList) = some ⟨some 2, some (some 10)⟩) (by decide +kernel)
  obtain ⟨g', hg', h'⟩ := check_ok (x := Model.YearDiff.networkCitation env0 (o .full true) true true (fun _ => ()) (fun _ : Nat => cite "DOE J, 2010, NATURE")
    (fun _ => some [cite "SMITH J, , 2000", cite "SMITH J, 2000"]) [0])
    (P := fun g => g.edge? (.str "Doe J, 2010, NATURE".toList) (.str "Smith J, 2000".toList) = some ⟨some 2, some none⟩) (by decide +kernel)
  refine ⟨fun _ => cite "DOE J, 2010, NATURE", [cite "SMITH J, 2000", cite "SMITH J, , 2000"], .str "Doe J, 2010, NATURE".toList, .str "Smith J, 2000".toList,
    g, g', ?_, hg, hg', h, h'⟩
  intro c hc
  simp only [List.mem_cons, List.not_mem_nil, or_false] at hc
  rcases hc with rfl | rfl | rfl
  · exact ⟨_, parsed_citation _, rfl⟩
  · exact ⟨_, parsed_citation _, rfl⟩
  · exact ⟨_, parsed_citation _, rfl⟩

/-- **C95 fails after a record without an identifying string.** It joins the works it cites without a `yearDiff`, and such an edge does not get one when a record at its
start cites the work at its end later. -/
theorem C95_never_added : ∃ (own : Nat → Cite) (cites : Nat → Option (List Cite)) (u v : NodeId) (g : YearNet Unit),
    (own 0).id = [] ∧ nodeName .full (own 1) = u ∧ (own 1).year = some (some 2010) ∧ (∃ c, cites 1 = some [c] ∧ nodeName .full c = v ∧ c.year = some (some 2000)) ∧
    Model.YearDiff.networkCitation env0 (o .full true) true true (fun _ => ()) own cites [0, 1] = .ok g ∧ g.edge? u v = some ⟨some 2, none⟩ := by
  let own : Nat → Cite := fun r => if r = 0 then cite "" else cite "DOE J, 2010, NATURE"
  let cites : Nat → Option (List Cite) := fun r => if r = 0 then some [cite "DOE J, 2010, NATURE", cite "SMITH J, 2000, NATURE"] else some [cite "SMITH J, 2000, NATURE"]
  have h : ∃ g, Model.YearDiff.networkCitation env0 (o .full true) true true (fun _ => ()) own cites [0, 1] = .ok g ∧
    g.edge? (.str "Doe J, 2010, NATURE".toList) (.str "Smith J, 2000, NATURE".toList) = some ⟨some 2, none⟩ := check_ok (by decide +kernel)
  obtain ⟨g, hg, h⟩ := h
  exact ⟨own, cites, _, _, g, by decide +kernel, by decide +kernel, by decide +kernel, ⟨_, rfl, by decide +kernel, by decide +kernel⟩, hg, h⟩

end Verif.Props.YearDiff
