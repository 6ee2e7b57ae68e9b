import Verif.Model.MergeNetworks
import Verif.Spec.MergeNetworks
import Verif.Props.GraphMerge

/-! # Lemmas for C112 -/
set_option autoImplicit false
set_option linter.unusedSectionVars false
set_option linter.unusedSimpArgs false
namespace Verif.Lemmas.MergeNetworks
open Verif.Py Verif.Py.Graph Verif.Model.GraphHelpers Verif.Model.MergeNetworks Verif.Spec Verif.Spec.MergeNetworks Verif.Props

variable {ν A ρ : Type} [DecidableEq ν]

theorem get?_map (f : A → Attrs) (d : Dict ν A) (n : ν) : Dict.get? (d.map (fun p => (p.1, f p.2))) n = (d.get? n).map f := by
  induction d with
  | nil => rfl
  | cons p d ih =>
    obtain ⟨k, a⟩ := p
    simp only [List.map_cons, Dict.get?, ih]
    split <;> rfl

theorem getE_map {B C : Type} (f : B → C) (d : Bool) (l : List ((ν × ν) × B)) (p : ν × ν) :
    getE d (l.map (fun e => (e.1, f e.2))) p = (getE d l p).map f := by
  induction l with
  | nil => rfl
  | cons e l ih =>
    obtain ⟨k, b⟩ := e
    simp only [List.map_cons, getE, ih]
    split <;> rfl

theorem asGraph_node (na : A → Attrs) (g : Graph ν A (Option Nat)) (n : ν) : (asGraph na g).node? n = (g.node? n).map na := get?_map na g.nodes n

theorem asGraph_edge (na : A → Attrs) (g : Graph ν A (Option Nat)) (u v : ν) : (asGraph na g).edge? u v = (g.edge? u v).map weightAttrs :=
  getE_map weightAttrs g.directed g.edges (u, v)

theorem asGraph_hasNode (na : A → Attrs) (g : Graph ν A (Option Nat)) (n : ν) : (asGraph na g).hasNode n = g.hasNode n := by
  unfold hasNode; rw [asGraph_node, Option.isSome_map]

theorem asGraph_WF (na : A → Attrs) {g : Graph ν A (Option Nat)} (h : g.WF) : (asGraph na g).WF where
  nodes := by
    have := h.nodes
    unfold Dict.WF Dict.keys at this ⊢
    simpa [asGraph, List.map_map, Function.comp_def] using this
  edges := by
    have := h.edges
    simp only [asGraph]
    rw [List.pairwise_map]
    exact this
  ends := by
    intro e he
    obtain ⟨e', he', rfl⟩ := List.mem_map.1 he
    rw [asGraph_hasNode, asGraph_hasNode]
    exact h.ends e' he'

/-- The edges of a graph in numbers, and its nodes. -/
structure EdgeTally (d wtd : Bool) (has : ν → Prop) (wt : ν → ν → Nat) (g : G ν) : Prop where
  wf : g.WF
  awf : AttrsWF g
  directed : g.directed = d
  absent : ∀ u v, wt u v = 0 → g.edge? u v = none
  present : ∀ u v, wt u v ≠ 0 → ∃ x, g.edge? u v = some x ∧ ∀ k, x.get? k = if k = "weight" ∧ wtd = true then some (.num (wt u v : Int)) else none
  nodes : ∀ n, g.hasNode n = true ↔ has n
  count : ∀ n x s, g.node? n = some x → x.get? "count" ≠ some (.str s)

/-- The nodes of a graph in numbers. -/
structure NodeTally (cnt : Bool) (occ : ν → Nat) (inf : ν → String → Option Val) (g : G ν) : Prop where
  absent : ∀ n, occ n = 0 → g.node? n = none
  present : ∀ n, occ n ≠ 0 → ∃ x, g.node? n = some x ∧
    ∀ k, x.get? k = if k = "count" then (if cnt then some (.num (occ n : Int)) else none) else inf n k

theorem attrs_of {g : G ν} (hg : g.WF) (hn : ∀ n x, g.node? n = some x → Dict.WF x) (he : ∀ u v x, g.edge? u v = some x → Dict.WF x) : AttrsWF g :=
  ⟨fun p hp => hn p.1 p.2 ((Dict.get?_eq_some_iff hg.nodes _ _).2 hp), fun e he' => he e.1.1 e.1.2 e.2 (edge?_of_mem hg he')⟩

theorem wf_node {g : G ν} (hw : AttrsWF g) (hg : g.WF) {n : ν} {x : Attrs} (h : g.node? n = some x) : Dict.WF x :=
  hw.1 (n, x) ((Dict.get?_eq_some_iff hg.nodes _ _).1 h)

theorem mem_of_getE {d : Bool} {l : List ((ν × ν) × Attrs)} {p : ν × ν} {x : Attrs} (h : getE d l p = some x) : ∃ e ∈ l, e.2 = x := by
  induction l with
  | nil => cases h
  | cons e l ih =>
    obtain ⟨k, b⟩ := e
    simp only [getE] at h
    split at h
    · exact ⟨_, List.mem_cons_self, Option.some.inj h⟩
    · obtain ⟨e, he, hx⟩ := ih h
      exact ⟨e, List.mem_cons_of_mem _ he, hx⟩

theorem wf_edge {g : G ν} (hw : AttrsWF g) {u v : ν} {x : Attrs} (h : g.edge? u v = some x) : Dict.WF x := by
  obtain ⟨e, he, rfl⟩ := mem_of_getE h
  exact hw.2 e he

theorem merged_WF {key : String} {x y z : Option Attrs} (hx : ∀ a, x = some a → Dict.WF a) (hy : ∀ a, y = some a → Dict.WF a)
    (h : merged key x y = z) : ∀ a, z = some a → Dict.WF a := by
  intro a ha
  subst h
  cases x with
  | none => exact hy a ha
  | some t =>
    cases y with
    | none => exact hx a ha
    | some b =>
      have ht := hx t rfl
      simp only [merged] at ha
      split at ha <;> cases ha
      · exact Dict.WF_set ht _ _
      · exact Dict.WF_set ht _ _
      · exact ht
      · exact Dict.WF_update ht _

/-- Which of two values of another attribute is kept. -/
def keptInf (cnt : Bool) (o1 o2 : Nat) (i1 i2 : String → Option Val) (k : String) : Option Val :=
  if o1 = 0 then i2 k else if o2 = 0 then i1 k else if cnt then i1 k else (i2 k).or (i1 k)

theorem merge_step {d wtd : Bool} {has1 has2 : ν → Prop} {wt1 wt2 : ν → ν → Nat} {t a : G ν} (ht : EdgeTally d wtd has1 wt1 t) (ha : EdgeTally d wtd has2 wt2 a) :
    ∃ r, mergeGraphs (some "count") (some "weight") t a = .ok r ∧ EdgeTally d wtd (fun n => has1 n ∨ has2 n) (fun u v => wt1 u v + wt2 u v) r ∧
      ∀ cnt occ1 occ2 inf1 inf2, NodeTally cnt occ1 inf1 t → NodeTally cnt occ2 inf2 a →
        NodeTally cnt (fun n => occ1 n + occ2 n) (fun n => keptInf cnt (occ1 n) (occ2 n) (inf1 n) (inf2 n)) r := by
  have hd : a.directed = t.directed := ha.directed.trans ht.directed.symm
  obtain ⟨hex, hall⟩ := C40_mergeGraphs "count" "weight" t a ht.wf ha.wf ha.awf hd
  have hw : ∀ {has : ν → Prop} {wt : ν → ν → Nat} {g : G ν}, EdgeTally d wtd has wt g → ∀ u v x s, g.edge? u v = some x → x.get? "weight" ≠ some (.str s) := by
    intro has wt g hg u v x s hx h
    by_cases h0 : wt u v = 0
    · rw [hg.absent u v h0] at hx; cases hx
    · obtain ⟨y, hy, hk⟩ := hg.present u v h0
      rw [hx] at hy; cases hy
      rw [hk] at h
      split at h <;> cases h
  obtain ⟨r, hr⟩ := hex.2 ⟨fun n x y hx hy hc => by
      rcases hc with ⟨_, s, _, h⟩ | ⟨s, _, h, _⟩
      · exact ha.count n y s hy h
      · exact ht.count n x s hx h,
    fun u v x y hx hy hc => by
      rcases hc with ⟨_, s, _, h⟩ | ⟨s, _, h, _⟩
      · exact hw ha u v y s hy h
      · exact hw ht u v x s hx h⟩
  obtain ⟨hwf, hdir, hn, he⟩ := hall r hr
  have hs := (C40_sums "count" "weight" t a r ht.wf ha.wf ha.awf hd hr).1
  refine ⟨r, hr, ⟨hwf, ?_, hdir.trans ht.directed, ?_, ?_, ?_, ?_⟩, ?_⟩
  · refine attrs_of hwf (fun n => ?_) (fun u v => ?_)
    · exact merged_WF (fun _ => wf_node ht.awf ht.wf) (fun _ => wf_node ha.awf ha.wf) (hn n).symm
    · exact merged_WF (fun _ => wf_edge ht.awf) (fun _ => wf_edge ha.awf) (he u v).symm
  · intro u v h
    rw [he, ht.absent u v (by omega), ha.absent u v (by omega)]; rfl
  · intro u v h
    rw [he]
    by_cases h1 : wt1 u v = 0
    · obtain ⟨y, hy, hk⟩ := ha.present u v (by omega)
      rw [ht.absent u v h1, hy]
      refine ⟨y, rfl, fun k => ?_⟩
      rw [hk k, h1, Nat.zero_add]
    · obtain ⟨x, hx, hkx⟩ := ht.present u v h1
      by_cases h2 : wt2 u v = 0
      · rw [ha.absent u v h2, hx]
        refine ⟨x, rfl, fun k => ?_⟩
        rw [hkx k, h2, Nat.add_zero]
      · obtain ⟨y, hy, hky⟩ := ha.present u v h2
        rw [hx, hy]
        cases wtd with
        | true =>
          have e1 := hkx "weight"
          have e2 := hky "weight"
          simp only [and_self, if_true] at e1 e2
          refine ⟨x.set "weight" (.num ((wt1 u v : Int) + wt2 u v)), ?_, fun k => ?_⟩
          · simp only [merged, e1, e2]
          · rw [Dict.get?_set]
            by_cases hk : "weight" = k
            · rw [if_pos hk, if_pos ⟨hk.symm, rfl⟩]; push_cast; rfl
            · rw [if_neg hk, hkx k, if_neg (fun h => hk h.1.symm), if_neg (fun h => hk h.1.symm)]
        | false =>
          have e1 := hkx "weight"
          simp only [Bool.false_eq_true, and_false, if_false] at e1
          refine ⟨x.update y, ?_, fun k => ?_⟩
          · simp only [merged, e1]
          · rw [Dict.get?_update _ _ (wf_edge ha.awf hy), hky k, hkx k]
            simp
  · intro n
    rw [hs n, ht.nodes, ha.nodes]
  · intro n z s hz hc
    rw [hn n] at hz
    cases hx : t.node? n with
    | none => rw [hx] at hz; exact ha.count n z s hz hc
    | some x =>
      cases hy : a.node? n with
      | none => rw [hx, hy] at hz; cases hz; exact ht.count n _ s hx hc
      | some y =>
        rw [hx, hy] at hz
        have cx := ht.count n x
        have cy := ha.count n y
        simp only [merged] at hz
        split at hz
        · cases hz; rw [Dict.get?_set_self] at hc; cases hc
        · rename_i h1 _; exact cx _ hx h1
        · cases hz; exact cx s hx hc
        · cases hz
          rw [Dict.get?_update _ _ (wf_node ha.awf ha.wf hy)] at hc
          cases hg : y.get? "count" with
          | none => rw [hg, Option.none_or] at hc; exact cx s hx hc
          | some v => rw [hg, Option.some_or] at hc; cases hc; exact cy s hy hg
  · intro cnt occ1 occ2 inf1 inf2 h1 h2
    refine ⟨fun n h => ?_, fun n h => ?_⟩
    · rw [hn, h1.absent n (by omega), h2.absent n (by omega)]; rfl
    · rw [hn]
      unfold keptInf
      by_cases o1 : occ1 n = 0
      · obtain ⟨y, hy, hk⟩ := h2.present n (by omega)
        rw [h1.absent n o1, hy]
        refine ⟨y, rfl, fun k => ?_⟩
        rw [hk k, o1, Nat.zero_add, if_pos rfl]
      · obtain ⟨x, hx, hkx⟩ := h1.present n o1
        by_cases o2 : occ2 n = 0
        · rw [h2.absent n o2, hx]
          refine ⟨x, rfl, fun k => ?_⟩
          rw [hkx k, o2, Nat.add_zero, if_neg o1, if_pos rfl]
        · obtain ⟨y, hy, hky⟩ := h2.present n o2
          rw [hx, hy]
          cases cnt with
          | true =>
            have e1 := hkx "count"
            have e2 := hky "count"
            simp only [if_true] at e1 e2
            refine ⟨x.set "count" (.num ((occ1 n : Int) + occ2 n)), ?_, fun k => ?_⟩
            · simp only [merged, e1, e2]
            · rw [Dict.get?_set, if_neg o1, if_neg o2]
              by_cases hk : "count" = k
              · rw [if_pos hk, if_pos hk.symm, if_pos rfl]; push_cast; rfl
              · rw [if_neg hk, hkx k, if_neg (fun h => hk h.symm), if_neg (fun h => hk h.symm), if_pos rfl]
          | false =>
            have e1 := hkx "count"
            simp only [Bool.false_eq_true, if_true, if_false] at e1
            refine ⟨x.update y, ?_, fun k => ?_⟩
            · simp only [merged, e1]
            · rw [Dict.get?_update _ _ (wf_node ha.awf ha.wf hy), hky k, hkx k, if_neg o1, if_neg o2]
              by_cases hk : k = "count"
              · simp [hk]
              · simp [hk]

theorem parts_fold {d wtd : Bool} (net : List ρ → Option (G ν)) (ok : ρ → Prop) (has : List ρ → ν → Prop) (wt : List ρ → ν → ν → Nat)
    (hnet : ∀ rs, (∀ r ∈ rs, ok r) → ∃ g, net rs = some g ∧ EdgeTally d wtd (has rs) (wt rs) g)
    (hhas : ∀ a b, has (a ++ b) = fun n => has a n ∨ has b n) (hwt : ∀ a b, wt (a ++ b) = fun u v => wt a u v + wt b u v)
    (part0 : List ρ) (parts : List (List ρ)) (hok : ∀ r ∈ part0 ++ parts.flatten, ok r) :
    ∃ r, mergeParts net part0 parts = some r ∧ EdgeTally d wtd (has (part0 ++ parts.flatten)) (wt (part0 ++ parts.flatten)) r ∧
      ∀ cnt (occ : List ρ → ν → Nat) (inf : List ρ → ν → String → Option Val), (∀ a b, occ (a ++ b) = fun n => occ a n + occ b n) →
        (∀ a b, inf (a ++ b) = fun n => keptInf cnt (occ a n) (occ b n) (inf a n) (inf b n)) →
        (∀ rs, (∀ r ∈ rs, ok r) → ∀ g, net rs = some g → NodeTally cnt (occ rs) (inf rs) g) →
        NodeTally cnt (occ (part0 ++ parts.flatten)) (inf (part0 ++ parts.flatten)) r := by
  unfold mergeParts
  obtain ⟨g, hg, he⟩ := hnet part0 (fun r hr => hok r (List.mem_append_left _ hr))
  rw [hg]
  have key : ∀ (ps : List (List ρ)) (done : List ρ) (g : G ν), (∀ r ∈ done ++ ps.flatten, ok r) → EdgeTally d wtd (has done) (wt done) g →
      ∃ r, ps.foldlM (fun g p => do
        let h ← net p
        (mergeGraphs (some "count") (some "weight") g h).toOption) g = some r ∧ EdgeTally d wtd (has (done ++ ps.flatten)) (wt (done ++ ps.flatten)) r ∧
      ∀ cnt (occ : List ρ → ν → Nat) (inf : List ρ → ν → String → Option Val), (∀ a b, occ (a ++ b) = fun n => occ a n + occ b n) →
        (∀ a b, inf (a ++ b) = fun n => keptInf cnt (occ a n) (occ b n) (inf a n) (inf b n)) →
        (∀ rs, (∀ r ∈ rs, ok r) → ∀ g, net rs = some g → NodeTally cnt (occ rs) (inf rs) g) → NodeTally cnt (occ done) (inf done) g →
        NodeTally cnt (occ (done ++ ps.flatten)) (inf (done ++ ps.flatten)) r := by
    intro ps
    induction ps with
    | nil =>
      intro done g _ hg
      refine ⟨g, rfl, ?_, ?_⟩
      · simpa using hg
      · intro cnt occ inf _ _ _ h; simpa using h
    | cons p ps ih =>
      intro done g hok hg
      have hokp : ∀ r ∈ p, ok r := fun r hr => hok r (by simp [hr])
      obtain ⟨a, ha, hea⟩ := hnet p hokp
      obtain ⟨r1, h1, h2, h3⟩ := merge_step hg hea
      rw [← hhas, ← hwt] at h2
      obtain ⟨r, h4, h5, h6⟩ := ih (done ++ p) r1 (fun r hr => hok r (by simpa [or_assoc] using hr)) h2
      rw [List.append_assoc] at h5 h6
      refine ⟨r, ?_, h5, ?_⟩
      · rw [List.foldlM_cons, ha]
        simp only [bind, Option.bind, h1, Except.toOption]
        exact h4
      · intro cnt occ inf ho hi hn hd
        refine h6 cnt occ inf ho hi hn ?_
        have := h3 cnt _ _ _ _ hd (hn p hokp a ha)
        rw [ho, hi]
        exact this
  obtain ⟨r, h1, h2, h3⟩ := key parts part0 g hok he
  exact ⟨r, h1, h2, fun cnt occ inf ho hi hn => h3 cnt occ inf ho hi hn (hn part0 (fun r hr => hok r (List.mem_append_left _ hr)) g hg)⟩

theorem same_edges {d wtd : Bool} {has has' : ν → Prop} {wt wt' : ν → ν → Nat} {g h : G ν} (hg : EdgeTally d wtd has wt g) (hh : EdgeTally d wtd has' wt' h)
    (e1 : ∀ n, has n ↔ has' n) (e2 : ∀ u v, wt u v = wt' u v) : SameEdges g h where
  directed := hg.directed.trans hh.directed.symm
  nodes n := by rw [Bool.eq_iff_iff, hg.nodes, hh.nodes, e1]
  edges u v := by
    by_cases h0 : wt u v = 0
    · rw [hg.absent u v h0, hh.absent u v (e2 u v ▸ h0)]; trivial
    · obtain ⟨x, hx, hkx⟩ := hg.present u v h0
      obtain ⟨y, hy, hky⟩ := hh.present u v (e2 u v ▸ h0)
      rw [hx, hy]
      intro k
      rw [hkx, hky, e2]

theorem same_attributes {cnt : Bool} {occ occ' : ν → Nat} {inf inf' : ν → String → Option Val} {g h : G ν} (hg : NodeTally cnt occ inf g) (hh : NodeTally cnt occ' inf' h)
    (e1 : ∀ n, occ n = occ' n) (e2 : ∀ n, occ n ≠ 0 → inf n = inf' n) (n : ν) : SameAttrs (g.node? n) (h.node? n) := by
  by_cases h0 : occ n = 0
  · rw [hg.absent n h0, hh.absent n (e1 n ▸ h0)]; trivial
  · obtain ⟨x, hx, hkx⟩ := hg.present n h0
    obtain ⟨y, hy, hky⟩ := hh.present n (e1 n ▸ h0)
    rw [hx, hy]
    intro k
    rw [hkx, hky, e1, e2 n h0]

/-- A network in numbers. -/
theorem edge_tally {d wtd : Bool} {has : ν → Prop} {wt : ν → ν → Nat} (na : A → Attrs) {g : Graph ν A (Option Nat)} (hw : g.WF) (hd : g.directed = d)
    (hna : ∀ n a, g.node? n = some a → Dict.WF (na a) ∧ ∀ s, (na a).get? "count" ≠ some (.str s))
    (he : ∀ u v, g.edge? u v = edgeFor wtd (wt u v)) (hh : ∀ n, g.hasNode n = true ↔ has n) : EdgeTally d wtd has wt (asGraph na g) where
  wf := asGraph_WF na hw
  awf := by
    refine attrs_of (asGraph_WF na hw) (fun n x hx => ?_) (fun u v x hx => ?_)
    · rw [asGraph_node] at hx
      obtain ⟨a, ha, rfl⟩ := Option.map_eq_some_iff.1 hx
      exact (hna n a ha).1
    · rw [asGraph_edge] at hx
      obtain ⟨b, _, rfl⟩ := Option.map_eq_some_iff.1 hx
      cases b <;> simp [weightAttrs, Dict.WF, Dict.keys]
  directed := hd
  absent u v h := by rw [asGraph_edge, he, h]; rfl
  present u v h := by
    rw [asGraph_edge, he]
    unfold edgeFor
    rw [if_neg h]
    refine ⟨_, rfl, fun k => ?_⟩
    cases wtd with
    | false => simp [weightAttrs]
    | true =>
      by_cases hk : k = "weight"
      · subst hk; simp [weightAttrs, Dict.get?]
      · have : ¬ "weight" = k := fun h => hk h.symm
        simp [weightAttrs, Dict.get?, hk, this]
  nodes n := by rw [asGraph_hasNode, hh]
  count n x s hx := by
    rw [asGraph_node] at hx
    obtain ⟨a, ha, rfl⟩ := Option.map_eq_some_iff.1 hx
    exact (hna n a ha).2 s

end Verif.Lemmas.MergeNetworks
