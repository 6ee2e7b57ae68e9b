import Verif.Props.WhoCites

/-!
# Networks of who cites whom, for records given in any order
-/
set_option autoImplicit false
set_option linter.unusedSimpArgs false
namespace Verif.Lemmas.FileCites
open Verif.Py Verif.Spec Verif.Props.WhoCites Verif.Props.Pipeline

section
variable {π : Type} (own : π → Model.Citation.Cite) (refs : π → List Model.Citation.Cite)

/-- The own citation of a paper and what it cites. -/
def both (p : π) : Model.Citation.Cite × Option (List Model.Citation.Cite) := (own p, if refs p = [] then none else some (refs p))

theorem both_getD (p : π) : (both own refs p).2.getD [] = refs p := by
  unfold both
  by_cases h : refs p = []
  · rw [if_pos h, h]; rfl
  · rw [if_neg h]; rfl

variable {own refs} {vals : List (Model.Citation.Cite × Option (List Model.Citation.Cite))} {papers : List π} (hp : vals.Perm (papers.map (both own refs)))
include hp

theorem mem_vals (x) : x ∈ vals ↔ ∃ p ∈ papers, x = both own refs p := by
  rw [hp.mem_iff, List.mem_map]
  exact ⟨fun ⟨p, h, e⟩ => ⟨p, h, e.symm⟩, fun ⟨p, h, e⟩ => ⟨p, h, e.symm⟩⟩

theorem sum_vals (f : Model.Citation.Cite × Option (List Model.Citation.Cite) → Nat) : (vals.map f).sum = (papers.map (fun p => f (both own refs p))).sum := by
  rw [(hp.map f).sum_nat, List.map_map]; rfl

theorem enters_iff (env : Model.CiteNetworks.Env) (o : Model.CiteNetworks.Opts) (hnt : o.nodeType = .full) (c : Model.Citation.Cite) :
    Enters env o Prod.fst vals c ↔ Wanted env .full o.dropAnon o.dropNonJournals o.keyWords (if o.coreOnly then some (papers.map own) else none) c := by
  have hm : (∃ r ∈ vals, env.hash r.1.id = env.hash c.id) ↔ ∃ d ∈ papers.map own, env.hash d.id = env.hash c.id := by
    constructor
    · rintro ⟨r, hr, e⟩
      obtain ⟨p, h1, rfl⟩ := (mem_vals hp r).1 hr
      exact ⟨_, List.mem_map_of_mem h1, e⟩
    · rintro ⟨d, hd, e⟩
      obtain ⟨p, h1, rfl⟩ := List.mem_map.1 hd
      exact ⟨_, (mem_vals hp _).2 ⟨p, h1, rfl⟩, e⟩
  unfold Enters Wanted
  rw [hnt, hm]
  cases o.coreOnly
  · simp [HasAttr, HasValue]
  · simp [HasAttr, HasValue]

open Classical in
theorem kept (env : Model.CiteNetworks.Env) (o : Model.CiteNetworks.Opts) (hnt : o.nodeType = .full) {Keep : Model.Citation.Cite → Prop}
    (hK : ∀ c, Keep c ↔ Wanted env .full o.dropAnon o.dropNonJournals o.keyWords (if o.coreOnly then some (papers.map own) else none) c) (p : π) :
    keptCites env o Prod.fst Prod.snd vals (both own refs p) = (refs p).filter (fun c => decide (Keep c)) := by
  unfold keptCites
  rw [both_getD]
  apply List.filter_congr
  intro c _
  rw [enters_iff hp env o hnt, ← hK]

open Classical in
theorem citation (env : Model.CiteNetworks.Env) (o : Model.CiteNetworks.Opts) (hnt : o.nodeType = .full) (directed recordToCite : Bool)
    (hmode : o.weighted = true ∨ recordToCite = true) (hyear : ∀ p ∈ papers, (own p).year ≠ none) (hid : ∀ p ∈ papers, (own p).id ≠ []) :
    ∃ g, Model.CiteNetworks.networkCitation env o directed recordToCite (fun _ => ()) Prod.fst Prod.snd vals = .ok g ∧ g.directed = directed ∧
      ∀ Keep : Model.Citation.Cite → Prop,
        (∀ c, Keep c ↔ Wanted env .full o.dropAnon o.dropNonJournals o.keyWords (if o.coreOnly then some (papers.map own) else none) c) →
      (∀ u v : Str, g.edge? (.str u) (.str v) = edgeFor o.weighted (papers.map (fun p => if Keep (own p) then
        headLinks directed recordToCite (own p).id (((refs p).filter (fun c => decide (Keep c))).map (fun c => c.id)) u v else 0)).sum) ∧
      ∀ n, g.hasNode n = true ↔ ∃ p ∈ papers, refs p ≠ [] ∧ Keep (own p) ∧ (n = .str (own p).id ∨ ∃ c ∈ refs p, Keep c ∧ n = .str c.id) := by
  obtain ⟨g, g1, _, g3, g4, g5⟩ := Verif.Props.C17_citation_partial env o directed recordToCite (fun _ => ()) Prod.fst Prod.snd vals (.inl ⟨.inl hnt, hmode⟩) (by
      intro r hr
      obtain ⟨p, h1, rfl⟩ := (mem_vals hp r).1 hr
      exact ⟨by rw [hnt]; trivial, hyear p h1⟩) (by
      intro _ r hr
      obtain ⟨p, h1, rfl⟩ := (mem_vals hp r).1 hr
      exact hid p h1) (by intro r hr c hc; rw [hnt]; trivial)
  refine ⟨g, g1, g3, fun Keep hK => ⟨fun u v => ?_, fun n => ?_⟩⟩
  · rw [g4]
    congr 1
    unfold citing
    rw [sum_filter, sum_vals hp]
    congr 1
    apply List.map_congr_left
    intro p h1
    have e1 : (both own refs p).1 = own p := rfl
    simp only [kept hp env o hnt hK, enters_iff hp env o hnt, ← hK, both_getD, decide_eq_true_eq, hnt, nodeName, e1]
    by_cases hk : Keep (own p)
    · by_cases he : refs p = []
      · rw [if_neg (fun e => e.2 he), if_pos hk, he]
        exact (headLinks_nil _ _ _ _ _).symm
      · rw [if_pos ⟨hk, he⟩, if_pos hk, ← headLinks_map (f := Model.CiteNetworks.NodeId.str) (fun x y e => by injection e), List.map_map]
        rfl
    · rw [if_neg (fun e => hk e.1), if_neg hk]
  · unfold Graph.hasNode
    rw [g5, Option.isSome_map, List.find?_isSome]
    unfold citing
    simp only [List.mem_flatMap, List.mem_filter, List.mem_cons, List.mem_map, decide_eq_true_eq, enters_iff hp env o hnt, ← hK, hnt, nodeName]
    constructor
    · rintro ⟨⟨b, c⟩, ⟨r, ⟨hr, ⟨k1, k2⟩⟩, hc⟩, hn⟩
      obtain ⟨p, h1, rfl⟩ := (mem_vals hp r).1 hr
      rw [both_getD] at k2
      refine ⟨p, h1, k2, k1, ?_⟩
      rcases hc with hc | ⟨d, hd, hc⟩
      · cases hc
        exact .inl hn.symm
      · cases hc
        rw [kept hp env o hnt hK] at hd
        obtain ⟨hd1, hd2⟩ := List.mem_filter.1 hd
        exact .inr ⟨_, hd1, of_decide_eq_true hd2, hn.symm⟩
    · rintro ⟨p, h1, h2, h3, h4⟩
      rcases h4 with h4 | ⟨c, hl, hk, hn⟩
      · refine ⟨(true, own p), ⟨both own refs p, ⟨(mem_vals hp _).2 ⟨p, h1, rfl⟩, h3, ?_⟩, Or.inl rfl⟩, h4.symm⟩
        rw [both_getD]; exact h2
      · refine ⟨(false, c), ⟨both own refs p, ⟨(mem_vals hp _).2 ⟨p, h1, rfl⟩, h3, ?_⟩, Or.inr ⟨c, ?_, rfl⟩⟩, hn.symm⟩
        · rw [both_getD]; exact h2
        · rw [kept hp env o hnt hK]
          exact List.mem_filter.2 ⟨hl, decide_eq_true hk⟩

open Classical in
theorem cocitation (env : Model.CiteNetworks.Env) (o : Model.CiteNetworks.Opts) (hnt : o.nodeType = .full) :
    ∃ g, Model.CiteNetworks.networkCoCitation env o (fun _ => ()) Prod.fst Prod.snd vals = .ok g ∧ g.directed = false ∧
      ∀ Keep : Model.Citation.Cite → Prop,
        (∀ c, Keep c ↔ Wanted env .full o.dropAnon o.dropNonJournals o.keyWords (if o.coreOnly then some (papers.map own) else none) c) →
      (∀ u v : Str, g.edge? (.str u) (.str v) = edgeFor o.weighted (papers.map (fun p =>
        pairsShared (((refs p).filter (fun c => decide (Keep c))).map (fun c => c.id)) u v)).sum) ∧
      ∀ n, g.hasNode n = true ↔ ∃ p ∈ papers, ∃ c ∈ refs p, Keep c ∧ n = .str c.id := by
  obtain ⟨g, g1, _, g3, g4, g5⟩ := Verif.Props.C16_cocitation env o (fun _ => ()) Prod.fst Prod.snd vals (by intro r hr c hc; rw [hnt]; trivial)
  refine ⟨g, g1, g3, fun Keep hK => ⟨fun u v => ?_, fun n => ?_⟩⟩
  · rw [g4, sum_vals hp]
    congr 2
    apply List.map_congr_left
    intro p h1
    simp only [kept hp env o hnt hK, hnt]
    rw [← pairs_map (f := Model.CiteNetworks.NodeId.str) (fun x y e => by injection e), List.map_map]
    rfl
  · unfold Graph.hasNode
    rw [g5, Option.isSome_map, List.find?_isSome]
    simp only [List.mem_flatMap, decide_eq_true_eq, hnt, nodeName]
    constructor
    · rintro ⟨c, ⟨r, hr, hc⟩, hn⟩
      obtain ⟨p, h1, rfl⟩ := (mem_vals hp r).1 hr
      rw [kept hp env o hnt hK] at hc
      obtain ⟨hd1, hd2⟩ := List.mem_filter.1 hc
      exact ⟨p, h1, c, hd1, of_decide_eq_true hd2, hn.symm⟩
    · rintro ⟨p, h1, c, hl, hkc, hn⟩
      refine ⟨c, ⟨_, (mem_vals hp _).2 ⟨p, h1, rfl⟩, ?_⟩, hn.symm⟩
      rw [kept hp env o hnt hK]
      exact List.mem_filter.2 ⟨hl, decide_eq_true hkc⟩

theorem coupling (env : Model.CiteNetworks.Env) (weighted : Bool) (shuffle : List Model.CiteNetworks.NodeId → List Model.CiteNetworks.NodeId) (hsh : ∀ l, (shuffle l).Perm l)
    (hyear : ∀ p ∈ papers, (own p).year ≠ none) (hid : ∀ p ∈ papers, (own p).id ≠ []) :
    ∃ g, Model.CiteNetworks.networkBibCoupling env weighted id shuffle (fun c => vals.any (fun v => decide (env.hash v.1.id = env.hash c.id))) Prod.fst Prod.snd vals = .ok g ∧
      g.directed = false ∧
      (∀ u v : Str, u ≠ v → ∀ common : List Str, common.Nodup →
        (∀ n, n ∈ common ↔ (∃ p ∈ papers, (own p).id = u ∧ ∃ c ∈ refs p, c.id = n) ∧ ∃ p ∈ papers, (own p).id = v ∧ ∃ c ∈ refs p, c.id = n) →
        g.edge? (.str u) (.str v) = edgeFor weighted common.length) ∧
      (∀ u, g.edge? u u = none) ∧
      (∀ s, g.hasNode (.str s) = true ↔ (∃ p ∈ papers, env.hash (own p).id = env.hash s) ∧
        ∃ p ∈ papers, refs p ≠ [] ∧ ((own p).id = s ∨ ∃ c ∈ refs p, c.id = s)) ∧
      ∀ n, g.hasNode (.num n) = false := by
  obtain ⟨g, g1, _, g3, g4, g5, g6, _, g8⟩ := Verif.Props.C18_coupling env weighted
    (fun c => vals.any (fun v => decide (env.hash v.1.id = env.hash c.id))) id Prod.fst Prod.snd vals shuffle hsh (fun _ => rfl) (by
      intro r hr
      obtain ⟨p, h1, rfl⟩ := (mem_vals hp r).1 hr
      exact ⟨hid p h1, hyear p h1⟩)
  have hcites : ∀ u n : Str, Verif.Props.citesWork Prod.fst Prod.snd vals (.str u) (.str n) = true ↔ ∃ p ∈ papers, (own p).id = u ∧ ∃ c ∈ refs p, c.id = n := by
    intro u n
    unfold Verif.Props.citesWork
    rw [List.any_eq_true]
    simp only [Bool.and_eq_true, decide_eq_true_eq, Model.CiteNetworks.NodeId.str.injEq, List.mem_map]
    constructor
    · rintro ⟨r, hr, e1, c, hc, e2⟩
      obtain ⟨p, h1, rfl⟩ := (mem_vals hp r).1 hr
      rw [both_getD] at hc
      exact ⟨p, h1, e1, c, hc, e2⟩
    · rintro ⟨p, h1, e1, c, hc, e2⟩
      refine ⟨_, (mem_vals hp _).2 ⟨p, h1, rfl⟩, e1, c, ?_, e2⟩
      rw [both_getD]
      exact hc
  refine ⟨g, g1, g3, fun u v huv common hnd hc => ?_, g5, fun s => ?_, g8⟩
  · rw [g4 _ _ (fun e => huv (by injection e)), List.countP_eq_length_filter]
    congr 1
    rw [← List.length_map (as := common) (f := Model.CiteNetworks.NodeId.str)]
    apply List.Perm.length_eq
    apply (List.perm_ext_iff_of_nodup (List.Nodup.filter _ (List.nodup_dedup _)) (hnd.map (fun x y e => by injection e))).2
    intro a
    rw [List.mem_filter, List.mem_map, Bool.and_eq_true]
    constructor
    · rintro ⟨h1, h2, h3⟩
      rw [List.mem_dedup, List.mem_flatMap] at h1
      obtain ⟨x, _, hx⟩ := h1
      obtain ⟨c, _, rfl⟩ := List.mem_map.1 hx
      exact ⟨_, (hc _).2 ⟨(hcites _ _).1 h2, (hcites _ _).1 h3⟩, rfl⟩
    · rintro ⟨n, hn, rfl⟩
      obtain ⟨h2, h3⟩ := (hc n).1 hn
      refine ⟨?_, (hcites _ _).2 h2, (hcites _ _).2 h3⟩
      obtain ⟨p, h1, _, c, hl, e⟩ := h2
      rw [List.mem_dedup, List.mem_flatMap]
      refine ⟨_, (mem_vals hp _).2 ⟨p, h1, rfl⟩, ?_⟩
      rw [both_getD]
      exact List.mem_map.2 ⟨c, hl, by rw [← e]⟩
  · rw [g6]
    apply and_congr
    · constructor
      · rintro ⟨r, hr, e⟩
        obtain ⟨p, h1, rfl⟩ := (mem_vals hp r).1 hr
        exact ⟨p, h1, e⟩
      · rintro ⟨p, h1, e⟩
        exact ⟨_, (mem_vals hp _).2 ⟨p, h1, rfl⟩, e⟩
    · constructor
      · rintro ⟨r, hr, h2, h3⟩
        obtain ⟨p, h1, rfl⟩ := (mem_vals hp r).1 hr
        rw [both_getD] at h2 h3
        rw [List.mem_map] at h3
        exact ⟨p, h1, h2, h3⟩
      · rintro ⟨p, h1, h2, h3⟩
        refine ⟨_, (mem_vals hp _).2 ⟨p, h1, rfl⟩, ?_⟩
        rw [both_getD, List.mem_map]
        exact ⟨h2, h3⟩

end
end Verif.Lemmas.FileCites
