import Verif.Lemmas.MergeNetworks
import Verif.Props.Networks
import Verif.Props.CoNetworks
import Verif.Props.CiteNetworks
import Verif.Props.Collection

/-!
# C112: networks can be made part by part

A collection is cut into parts, the network of each part is made, and the networks are merged with `mergeGraphs`. The records of the whole collection may be met in another
order than those of the parts.
-/
set_option autoImplicit false
set_option linter.unusedSectionVars false
set_option linter.unusedSimpArgs false
namespace Verif.Props.MergeNetworks
open Verif.Py Verif.Py.Graph Verif.Model.GraphHelpers Verif.Model.MergeNetworks Verif.Model.Networks Verif.Model.CoNetworks Verif.Model.CiteNetworks
  Verif.Model.Citation Verif.Model.Series Verif.Model Verif.Spec Verif.Spec.MergeNetworks Verif.Lemmas.MergeNetworks

variable {ρ α ν τ : Type} [DecidableEq ν]

/-! ## One mode and several levels -/

theorem netAttrs_ok (a : NodeAttr) : Dict.WF (netAttrs a) ∧ ∀ s, (netAttrs a).get? "count" ≠ some (.str s) := by
  obtain ⟨c, t⟩ := a
  constructor
  · cases c <;> cases t <;> simp [netAttrs, Dict.WF, Dict.keys]
  · intro s
    cases c <;> cases t <;> simp [netAttrs, Dict.get?]

theorem sum_zero_iff {l : List Nat} : l.sum = 0 ↔ ∀ x ∈ l, x = 0 := by
  induction l with
  | nil => simp
  | cons a l ih => simp [ih]

theorem sum_append' (f : ρ → Nat) (a b : List ρ) : ((a ++ b).map f).sum = (a.map f).sum + (b.map f).sum := by simp

/-- `networkMultiLevel`, and with one tag `networkOneMode`: the merged networks of the parts are the network of the whole. -/
theorem C112_multi_level (nodeCount edgeWeight : Bool) (ident : α → ν) (field : ρ → τ → Option (FieldVal α)) (modes : List τ) (part0 : List ρ) (parts : List (List ρ))
    (whole : List ρ) (hw : whole.Perm (part0 ++ parts.flatten)) :
    ∃ r, mergeParts (fun rs => some (asGraph netAttrs (networkMultiLevel nodeCount edgeWeight ident field modes rs))) part0 parts = some r ∧
      SameGraph r (asGraph netAttrs (networkMultiLevel nodeCount edgeWeight ident field modes whole)) := by
  let occ : List ρ → ν → Nat := fun rs n => (rs.map (fun r => (names ident field modes r).count n)).sum
  let wt : List ρ → ν → ν → Nat := fun rs u v => (rs.map (fun r => pairsShared (names ident field modes r) u v)).sum
  have hE : ∀ rs, EdgeTally false edgeWeight (fun n => occ rs n ≠ 0) (wt rs) (asGraph netAttrs (networkMultiLevel nodeCount edgeWeight ident field modes rs)) := by
    intro rs
    obtain ⟨h1, h2, h3, h4⟩ := C12_multi_level nodeCount edgeWeight ident field modes rs
    refine edge_tally netAttrs h1 h2 (fun n a _ => netAttrs_ok a) h3 (fun n => ?_)
    unfold hasNode
    rw [h4 n]
    simp only
    by_cases h0 : occ rs n = 0
    · rw [if_pos h0]; simp [h0]
    · rw [if_neg h0]; simp [h0]
  have hN : ∀ rs, NodeTally nodeCount (occ rs) (fun _ _ => none) (asGraph netAttrs (networkMultiLevel nodeCount edgeWeight ident field modes rs)) := by
    intro rs
    obtain ⟨_, _, _, h4⟩ := C12_multi_level nodeCount edgeWeight ident field modes rs
    refine ⟨fun n h => ?_, fun n h => ?_⟩
    · rw [asGraph_node, h4 n]; simp only; rw [if_pos h]; rfl
    · rw [asGraph_node, h4 n]; simp only; rw [if_neg h]
      refine ⟨_, rfl, fun k => ?_⟩
      cases nodeCount with
      | false => simp [netAttrs]
      | true =>
        by_cases hk : k = "count"
        · subst hk; simp [netAttrs, Dict.get?, occ]
        · have : ¬ "count" = k := fun h => hk h.symm
          simp [netAttrs, Dict.get?, hk, this]
  obtain ⟨r, h1, h2, h3⟩ := parts_fold (d := false) (wtd := edgeWeight) (fun rs => some (asGraph netAttrs (networkMultiLevel nodeCount edgeWeight ident field modes rs)))
    (fun _ => True) (fun rs n => occ rs n ≠ 0) wt (fun rs _ => ⟨_, rfl, hE rs⟩)
    (fun a b => by funext n; simp only [occ]; rw [sum_append']; simp only [ne_eq, eq_iff_iff]; omega)
    (fun a b => by funext u v; simp only [wt]; rw [sum_append']) part0 parts (fun _ _ => trivial)
  refine ⟨r, h1, ⟨same_edges h2 (hE whole) (fun n => ?_) (fun u v => ?_), fun n => ?_⟩⟩
  · simp only [occ]; rw [sum_perm (hw.map _)]
  · exact (sum_perm (hw.map _)).symm
  · have := h3 nodeCount occ (fun _ _ _ => none) (fun a b => by funext n; exact sum_append' _ a b) (fun a b => by funext n k; simp [keptInf])
      (fun rs _ g hg => by cases hg; exact hN rs)
    exact same_attributes this (hN whole) (fun n => (sum_perm (hw.map _)).symm) (fun _ _ => rfl) n

/-- The case of the parts that `chunk` makes. -/
theorem C112_chunk {κ ε : Type} [DecidableEq ρ] [DecidableEq κ] (tyName : ρ → String) (c : Coll ρ κ ε) (hc : c.items.Nodup) (hne : c.items ≠ []) (maxSize : Int)
    (nodeCount edgeWeight : Bool) (ident : α → ν) (field : ρ → τ → Option (FieldVal α)) (mode : τ) :
    ∃ chunks part0 parts, c.chunk tyName maxSize = some chunks ∧ chunks.map Coll.items = part0 :: parts ∧
      ∃ r, mergeParts (fun rs => some (asGraph netAttrs (networkOneMode nodeCount edgeWeight ident field mode rs))) part0 parts = some r ∧
        SameGraph r (asGraph netAttrs (networkOneMode nodeCount edgeWeight ident field mode c.items)) := by
  obtain ⟨chunks, h1, h2, _⟩ := C04_chunk_partition tyName c hc maxSize
  have hp := h2.cover
  cases hm : chunks.map Coll.items with
  | nil => rw [hm] at hp; exact absurd hp.symm.eq_nil hne
  | cons p0 ps =>
    rw [hm] at hp
    exact ⟨chunks, p0, ps, h1, hm, C112_multi_level nodeCount edgeWeight ident field [mode] p0 ps c.items hp.symm⟩

/-! ## Authors, investigators, cited works -/

/-- The other attributes of the nodes do not use the name `count`. -/
def InfoOk (a : Attrs) : Prop := Dict.WF a ∧ a.get? "count" = none

theorem coAttrs_ok {a : CoAttr Attrs} (h : InfoOk a.info) : Dict.WF (coAttrs a) ∧ ∀ s, (coAttrs a).get? "count" ≠ some (.str s) := by
  obtain ⟨c, i⟩ := a
  obtain ⟨h1, h2⟩ := h
  constructor
  · cases c with
    | none => simpa [coAttrs] using h1
    | some n =>
      have hk := (Dict.get?_eq_none_iff _ _).1 h2
      unfold Dict.WF Dict.keys at h1 ⊢
      unfold Dict.keys at hk
      simp only [coAttrs, List.map_append, List.map_cons, List.map_nil]
      rw [List.nodup_append]
      exact ⟨h1, by simp, fun x hx y hy e => hk (by simp only [List.mem_singleton] at hy; rw [← hy, ← e]; exact hx)⟩
  · intro s
    simp only [coAttrs]
    rw [Dict.get?_append, h2, Option.none_or]
    cases c <;> simp [Dict.get?]

theorem find_append {β : Type} (q : β → Bool) (a b : List β) : (a ++ b).find? q = (a.find? q).or (b.find? q) := List.find?_append

/-- What the three have in common: each record adds named entries. -/
theorem co_parts (d cnt wtd : Bool) (net : List ρ → Option (Graph ν (CoAttr Attrs) (Option Nat))) (ok : ρ → Prop) (entries : ρ → List (ν × Attrs))
    (occ1 : ρ → ν → Nat) (wt1 : ρ → ν → ν → Nat) (hocc : ∀ r n, occ1 r n = 0 ↔ n ∉ (entries r).map Prod.fst) (hinfo : ∀ r, ∀ p ∈ entries r, InfoOk p.2)
    (hnet : ∀ rs, (∀ r ∈ rs, ok r) → ∃ g, net rs = some g ∧ g.WF ∧ g.directed = d ∧
      (∀ u v, g.edge? u v = edgeFor wtd (rs.map (fun r => wt1 r u v)).sum) ∧
      ∀ n, g.node? n = ((rs.flatMap entries).find? (fun p => decide (p.1 = n))).map (fun p => ⟨if cnt then some (rs.map (fun r => occ1 r n)).sum else none, p.2⟩))
    (part0 : List ρ) (parts : List (List ρ)) (hok : ∀ r ∈ part0 ++ parts.flatten, ok r) :
    ∃ r, mergeParts (fun rs => (net rs).map (asGraph coAttrs)) part0 parts = some r ∧
      (cnt = true → ∃ g, net (part0 ++ parts.flatten) = some g ∧ SameGraph r (asGraph coAttrs g)) ∧
      ((∀ r, ∀ p ∈ entries r, p.2 = []) → ∀ whole : List ρ, whole.Perm (part0 ++ parts.flatten) →
        ∃ g, net whole = some g ∧ SameGraph r (asGraph coAttrs g)) := by
  let occ : List ρ → ν → Nat := fun rs n => (rs.map (fun r => occ1 r n)).sum
  let wt : List ρ → ν → ν → Nat := fun rs u v => (rs.map (fun r => wt1 r u v)).sum
  have hocc' : ∀ rs n, occ rs n = 0 ↔ (rs.flatMap entries).find? (fun p => decide (p.1 = n)) = none := by
    intro rs n
    simp only [occ]
    rw [sum_zero_iff, List.find?_eq_none]
    simp only [List.mem_map, forall_exists_index, and_imp, forall_apply_eq_imp_iff₂, List.mem_flatMap, decide_eq_true_eq]
    constructor
    · rintro h p r hr hp e
      exact (hocc r n).1 (h r hr) (List.mem_map.2 ⟨p, hp, e⟩)
    · intro h r hr
      rw [hocc]
      intro hm
      obtain ⟨p, hp, e⟩ := List.mem_map.1 hm
      exact h p r hr hp e
  have hE : ∀ rs, (∀ r ∈ rs, ok r) → ∀ g, net rs = some g → EdgeTally d wtd (fun n => occ rs n ≠ 0) (wt rs) (asGraph coAttrs g) := by
    intro rs hr g hg
    obtain ⟨g', e, h1, h2, h3, h4⟩ := hnet rs hr
    rw [hg] at e; cases e
    refine edge_tally coAttrs h1 h2 (fun n a ha => ?_) h3 (fun n => ?_)
    · rw [h4] at ha
      obtain ⟨p, hp, rfl⟩ := Option.map_eq_some_iff.1 ha
      obtain ⟨r, _, hm⟩ := List.mem_flatMap.1 (List.mem_of_find?_eq_some hp)
      exact coAttrs_ok (hinfo r p hm)
    · unfold hasNode
      rw [h4, Option.isSome_map, ne_eq, hocc', Option.isSome_iff_ne_none]
  let inf : List ρ → ν → String → Option Val := fun rs n k => ((rs.flatMap entries).find? (fun p => decide (p.1 = n))).elim none (fun p => p.2.get? k)
  have hN : ∀ rs, (∀ r ∈ rs, ok r) → ∀ g, net rs = some g → NodeTally cnt (occ rs) (inf rs) (asGraph coAttrs g) := by
    intro rs hr g hg
    obtain ⟨g', e, h1, h2, h3, h4⟩ := hnet rs hr
    rw [hg] at e; cases e
    refine ⟨fun n h => ?_, fun n h => ?_⟩
    · rw [asGraph_node, h4, (hocc' rs n).1 h]; rfl
    · obtain ⟨p, hp⟩ := Option.ne_none_iff_exists'.1 (fun e => h ((hocc' rs n).2 e))
      rw [asGraph_node, h4, hp]
      refine ⟨_, rfl, fun k => ?_⟩
      obtain ⟨r, _, hm⟩ := List.mem_flatMap.1 (List.mem_of_find?_eq_some hp)
      have hi := (hinfo r p hm).2
      simp only [inf, hp, coAttrs, Option.elim]
      rw [Dict.get?_append]
      by_cases hk : k = "count"
      · subst hk
        rw [hi, Option.none_or, if_pos rfl]
        cases cnt <;> simp [Dict.get?, occ]
      · have hk' : ¬ "count" = k := fun h => hk h.symm
        rw [if_neg hk]
        cases cnt <;> simp [Dict.get?, hk']
  have hperm : ∀ {whole : List ρ}, whole.Perm (part0 ++ parts.flatten) → ∀ r ∈ whole, ok r := fun hw r hr => hok r (hw.mem_iff.1 hr)
  obtain ⟨r, h1, h2, h3⟩ := parts_fold (d := d) (wtd := wtd) (fun rs => (net rs).map (asGraph coAttrs)) ok (fun rs n => occ rs n ≠ 0) wt
    (fun rs hr => by
      obtain ⟨g, e, _⟩ := hnet rs hr
      exact ⟨asGraph coAttrs g, by simp only [e, Option.map_some], hE rs hr g e⟩)
    (fun a b => by funext n; simp only [occ]; rw [sum_append']; simp only [ne_eq, eq_iff_iff]; omega)
    (fun a b => by funext u v; simp only [wt]; rw [sum_append']) part0 parts hok
  refine ⟨r, h1, fun hc => ?_, fun hi whole hw => ?_⟩
  · subst hc
    obtain ⟨g, e, _⟩ := hnet _ hok
    refine ⟨g, e, ⟨same_edges h2 (hE _ hok g e) (fun _ => Iff.rfl) (fun _ _ => rfl), fun n => ?_⟩⟩
    refine same_attributes (h3 true occ inf (fun a b => by funext n; exact sum_append' _ a b) (fun a b => ?_) (fun rs hr g' hg' => ?_)) (hN _ hok g e) (fun _ => rfl)
      (fun _ _ => rfl) n
    · funext n k
      simp only [inf, keptInf, List.flatMap_append]
      rw [find_append]
      by_cases ha : occ a n = 0
      · rw [if_pos ha, (hocc' a n).1 ha, Option.none_or]
      · obtain ⟨p, hp⟩ := Option.ne_none_iff_exists'.1 (fun e => ha ((hocc' a n).2 e))
        rw [if_neg ha, hp, Option.some_or, if_pos trivial, ite_self]
    · obtain ⟨g0, e0, rfl⟩ := Option.map_eq_some_iff.1 hg'
      exact hN rs hr g0 e0
  · obtain ⟨g, e, _⟩ := hnet whole (hperm hw)
    have hinf : ∀ rs n k, inf rs n k = none := by
      intro rs n k
      simp only [inf]
      cases hf : (rs.flatMap entries).find? (fun p => decide (p.1 = n)) with
      | none => rfl
      | some p =>
        obtain ⟨r, _, hm⟩ := List.mem_flatMap.1 (List.mem_of_find?_eq_some hf)
        simp only [Option.elim, hi r p hm, Dict.get?_nil]
    refine ⟨g, e, ⟨same_edges h2 (hE _ (hperm hw) g e) (fun n => ?_) (fun u v => ?_), fun n => ?_⟩⟩
    · simp only [occ]; rw [sum_perm (hw.map _)]
    · exact (sum_perm (hw.map _)).symm
    · refine same_attributes (h3 cnt occ (fun _ _ _ => none) (fun a b => by funext n; exact sum_append' _ a b) (fun a b => by funext n k; simp [keptInf])
        (fun rs hr g' hg' => ?_)) (hN _ (hperm hw) g e) (fun n => (sum_perm (hw.map _)).symm) (fun n _ => by funext k; rw [hinf]) n
      obtain ⟨g0, e0, rfl⟩ := Option.map_eq_some_iff.1 hg'
      have := hN rs hr g0 e0
      rwa [show inf rs = fun _ _ => none from by funext n k; exact hinf rs n k] at this

theorem positionSum_zero (n : ν) (l : List ν) : positionSum n l = 0 ↔ n ∉ l := by
  constructor
  · intro h hm
    have := le_positionSum n l
    rw [if_pos hm] at this; omega
  · intro h
    unfold positionSum
    rw [sum_zero_iff]
    intro x hx
    obtain ⟨p, hp, rfl⟩ := List.mem_map.1 hx
    rw [if_neg]
    rintro rfl
    exact h (List.mem_of_getElem? (List.mem_zipIdx_iff_getElem?.1 hp))

/-- `networkCoInvestigator` with counts, the parts in the order in which the whole collection is gone through: the same graph, with the same counts and, where a node has
other attributes, the same of these. Without other attributes in any order, with and without counts. -/
theorem C112_coinvestigators (count weighted : Bool) (invest : ρ → List (ν × Attrs)) (hinfo : ∀ G, ∀ p ∈ invest G, InfoOk p.2) (part0 : List ρ) (parts : List (List ρ)) :
    ∃ r, mergeParts (fun rs => some (asGraph coAttrs (networkCoInvestigator count weighted invest rs))) part0 parts = some r ∧
      (count = true → SameGraph r (asGraph coAttrs (networkCoInvestigator count weighted invest (part0 ++ parts.flatten)))) ∧
      ((∀ G, ∀ p ∈ invest G, p.2 = []) → ∀ whole : List ρ, whole.Perm (part0 ++ parts.flatten) →
        SameGraph r (asGraph coAttrs (networkCoInvestigator count weighted invest whole))) := by
  obtain ⟨r, h1, h2, h3⟩ := co_parts false count weighted (fun rs => some (networkCoInvestigator count weighted invest rs)) (fun _ => True) invest
    (fun G n => positionSum n ((invest G).map Prod.fst)) (fun G u v => pairsShared ((invest G).map Prod.fst) u v) (fun G n => positionSum_zero n _) hinfo
    (fun rs _ => by
      obtain ⟨a, b, c, _⟩ := C49_edges_nodes count weighted invest rs
      exact ⟨_, rfl, a, b, c, fun n => C49_attributes count weighted invest rs n⟩) part0 parts (fun _ _ => trivial)
  refine ⟨r, h1, fun hc => ?_, fun hi whole hw => ?_⟩
  · obtain ⟨g, e, h⟩ := h2 hc
    cases e; exact h
  · obtain ⟨g, e, h⟩ := h3 hi whole hw
    cases e; exact h

/-- The names of a record with what is attached to them. -/
def authorEntries (dropNonJournals : Bool) (isJournal : ρ → Bool) (authors : ρ → List ν) (info : ρ → Attrs) (r : ρ) : List (ν × Attrs) :=
  if dropNonJournals && !isJournal r then [] else (authors r).map (fun a => (a, info r))

theorem coAuthor_invest (weighted dropNonJournals count : Bool) (isJournal : ρ → Bool) (authors : ρ → List ν) (info : ρ → Attrs) (rs : List ρ) :
    networkCoAuthor weighted dropNonJournals count isJournal authors info rs =
      networkCoInvestigator count weighted (authorEntries dropNonJournals isJournal authors info) rs := by
  unfold networkCoAuthor networkCoInvestigator
  congr 1
  funext g r
  unfold authorEntries
  split
  · rfl
  · rfl

/-- `networkCoAuthor`, with all options: as for investigators. -/
theorem C112_coauthors (weighted dropNonJournals count : Bool) (isJournal : ρ → Bool) (authors : ρ → List ν) (info : ρ → Attrs) (hinfo : ∀ r, InfoOk (info r))
    (part0 : List ρ) (parts : List (List ρ)) :
    ∃ r, mergeParts (fun rs => some (asGraph coAttrs (networkCoAuthor weighted dropNonJournals count isJournal authors info rs))) part0 parts = some r ∧
      (count = true → SameGraph r (asGraph coAttrs (networkCoAuthor weighted dropNonJournals count isJournal authors info (part0 ++ parts.flatten)))) ∧
      ((∀ r, info r = []) → ∀ whole : List ρ, whole.Perm (part0 ++ parts.flatten) →
        SameGraph r (asGraph coAttrs (networkCoAuthor weighted dropNonJournals count isJournal authors info whole))) := by
  have hm : ∀ r, ∀ p ∈ authorEntries dropNonJournals isJournal authors info r, p.2 = info r := by
    intro r p hp
    unfold authorEntries at hp
    split at hp
    · cases hp
    · obtain ⟨a, _, rfl⟩ := List.mem_map.1 hp; rfl
  simp only [coAuthor_invest]
  obtain ⟨r, h1, h2, h3⟩ := C112_coinvestigators count weighted (authorEntries dropNonJournals isJournal authors info)
    (fun r p hp => by rw [hm r p hp]; exact hinfo r) part0 parts
  exact ⟨r, h1, h2, fun hi => h3 (fun r p hp => (hm r p hp).trans (hi r))⟩

theorem kept_const (env : Env) (o : Opts) (own : ρ → Cite) (cites : ρ → Option (List Cite)) (hcore : o.coreOnly = false) (rs : List ρ) :
    keptCites env o own cites rs = keptCites env o own cites [] := by
  funext r
  unfold keptCites
  apply List.filter_congr
  intro c _
  have : Enters env o own rs c ↔ Enters env o own [] c := by unfold Enters; rw [hcore]; simp
  exact decide_eq_decide.2 this

/-- `networkCoCitation` without `coreOnly`, for citations that have the attribute the nodes are named by. -/
theorem C112_cocitations (env : Env) (o : Opts) (info : Cite → Attrs) (own : ρ → Cite) (cites : ρ → Option (List Cite)) (hcore : o.coreOnly = false)
    (hinfo : ∀ c, InfoOk (info c)) (part0 : List ρ) (parts : List (List ρ))
    (hattr : ∀ r ∈ part0 ++ parts.flatten, ∀ c ∈ keptCites env o own cites (part0 ++ parts.flatten) r, HasAttr o.nodeType c) :
    ∃ r, mergeParts (fun rs => (networkCoCitation env o info own cites rs).toOption.map (asGraph coAttrs)) part0 parts = some r ∧
      (o.count = true → ∃ g, networkCoCitation env o info own cites (part0 ++ parts.flatten) = .ok g ∧ SameGraph r (asGraph coAttrs g)) ∧
      ((∀ c, info c = []) → ∀ whole : List ρ, whole.Perm (part0 ++ parts.flatten) →
        ∃ g, networkCoCitation env o info own cites whole = .ok g ∧ SameGraph r (asGraph coAttrs g)) := by
  let K := keptCites env o own cites []
  have hK : ∀ rs, keptCites env o own cites rs = K := fun rs => kept_const env o own cites hcore rs
  rw [hK] at hattr
  have ok_of : ∀ {e : Except NetErr (CiteNet Attrs)} {g}, e.toOption = some g → e = .ok g := by
    intro e g h
    cases e with
    | error _ => cases h
    | ok a => cases h; rfl
  obtain ⟨r, h1, h2, h3⟩ := co_parts false o.count o.weighted (fun rs => (networkCoCitation env o info own cites rs).toOption) (fun r => ∀ c ∈ K r, HasAttr o.nodeType c)
    (fun r => (K r).map (fun c => (nodeName o.nodeType c, info c))) (fun r n => ((K r).map (nodeName o.nodeType)).count n)
    (fun r u v => pairsShared ((K r).map (nodeName o.nodeType)) u v)
    (fun r n => by rw [List.count_eq_zero, List.map_map]; exact Iff.rfl)
    (fun r p hp => by obtain ⟨c, _, rfl⟩ := List.mem_map.1 hp; exact hinfo c)
    (fun rs hr => by
      obtain ⟨g, e, a, b, c, d⟩ := C16_cocitation env o info own cites rs (fun r h c hc => hr r h c (by rwa [hK] at hc))
      rw [hK] at c d
      refine ⟨g, by rw [e]; rfl, a, b, c, fun n => ?_⟩
      rw [d n, ← List.map_flatMap, List.find?_map, Option.map_map]
      rfl) part0 parts hattr
  refine ⟨r, h1, fun hc => ?_, fun hi whole hw => ?_⟩
  · obtain ⟨g, e, h⟩ := h2 hc
    exact ⟨g, ok_of e, h⟩
  · obtain ⟨g, e, h⟩ := h3 (fun r p hp => by obtain ⟨c, _, rfl⟩ := List.mem_map.1 hp; exact hi c) whole hw
    exact ⟨g, ok_of e, h⟩

/-! ## Networks whose edges and nodes are right -/

/-- `networkTwoMode`: nodes, edges and weights. -/
theorem C112_two_mode_partial (directed nodeCount edgeWeight recordType : Bool) (ident1 ident2 : α → ν) (field : ρ → String → Option (FieldVal α)) (tag1 tag2 : String)
    (part0 : List ρ) (parts : List (List ρ)) (whole : List ρ) (hw : whole.Perm (part0 ++ parts.flatten)) :
    ∃ r, mergeParts (fun rs => some (asGraph netAttrs (networkTwoMode directed nodeCount edgeWeight recordType ident1 ident2 field tag1 tag2 rs))) part0 parts = some r ∧
      SameEdges r (asGraph netAttrs (networkTwoMode directed nodeCount edgeWeight recordType ident1 ident2 field tag1 tag2 whole)) := by
  let has : List ρ → ν → Prop := fun rs n => ∃ r ∈ rs, n ∈ names ident1 field [tag1] r ∨ n ∈ names ident2 field [tag2] r
  let wt : List ρ → ν → ν → Nat := fun rs u v =>
    (rs.map (fun r => crossShared directed (names ident1 field [tag1] r) (names ident2 field [tag2] r) u v)).sum
  have hE : ∀ rs, EdgeTally directed edgeWeight (has rs) (wt rs)
      (asGraph netAttrs (networkTwoMode directed nodeCount edgeWeight recordType ident1 ident2 field tag1 tag2 rs)) := by
    intro rs
    obtain ⟨h1, h2, h3, h4⟩ := C13_edges_nodes directed nodeCount edgeWeight recordType ident1 ident2 field tag1 tag2 rs
    exact edge_tally netAttrs h1 h2 (fun n a _ => netAttrs_ok a) h3 h4
  obtain ⟨r, h1, h2, _⟩ := parts_fold (d := directed) (wtd := edgeWeight)
    (fun rs => some (asGraph netAttrs (networkTwoMode directed nodeCount edgeWeight recordType ident1 ident2 field tag1 tag2 rs)))
    (fun _ => True) has wt (fun rs _ => ⟨_, rfl, hE rs⟩)
    (fun a b => by funext n; simp only [has, List.mem_append, or_and_right, exists_or])
    (fun a b => by funext u v; simp only [wt]; rw [sum_append']) part0 parts (fun _ _ => trivial)
  exact ⟨r, h1, same_edges h2 (hE whole) (fun n => by simp only [has, hw.mem_iff]) (fun u v => (sum_perm (hw.map _)).symm)⟩

/-- `networkMultiMode`: nodes, edges and weights. -/
theorem C112_multi_mode_partial (nodeCount edgeWeight recordType : Bool) (falsy : α → Bool) (ident : α → ν) (field : ρ → String → Option (FieldVal α)) (tags : List String)
    (part0 : List ρ) (parts : List (List ρ)) (whole : List ρ) (hw : whole.Perm (part0 ++ parts.flatten)) :
    ∃ r, mergeParts (fun rs => some (asGraph netAttrs (networkMultiMode nodeCount edgeWeight recordType falsy ident field tags rs))) part0 parts = some r ∧
      SameEdges r (asGraph netAttrs (networkMultiMode nodeCount edgeWeight recordType falsy ident field tags whole)) := by
  let has : List ρ → ν → Prop := fun rs n => ∃ r ∈ rs, ∃ c ∈ namesPerTag falsy ident field tags r, n ∈ c.2
  let wt : List ρ → ν → ν → Nat := fun rs u v => (rs.map (fun r => crossSharedAll ((namesPerTag falsy ident field tags r).map Prod.snd) u v)).sum
  have hE : ∀ rs, EdgeTally false edgeWeight (has rs) (wt rs)
      (asGraph netAttrs (networkMultiMode nodeCount edgeWeight recordType falsy ident field tags rs)) := by
    intro rs
    obtain ⟨h1, h2, h3, h4⟩ := C14_edges_nodes nodeCount edgeWeight recordType falsy ident field tags rs
    exact edge_tally netAttrs h1 h2 (fun n a _ => netAttrs_ok a) h3 h4
  obtain ⟨r, h1, h2, _⟩ := parts_fold (d := false) (wtd := edgeWeight)
    (fun rs => some (asGraph netAttrs (networkMultiMode nodeCount edgeWeight recordType falsy ident field tags rs)))
    (fun _ => True) has wt (fun rs _ => ⟨_, rfl, hE rs⟩)
    (fun a b => by funext n; simp only [has, List.mem_append, or_and_right, exists_or])
    (fun a b => by funext u v; simp only [wt]; rw [sum_append']) part0 parts (fun _ _ => trivial)
  exact ⟨r, h1, same_edges h2 (hE whole) (fun n => by simp only [has, hw.mem_iff]) (fun u v => (sum_perm (hw.map _)).symm)⟩

theorem citing_const (env : Env) (o : Opts) (own : ρ → Cite) (cites : ρ → Option (List Cite)) (hcore : o.coreOnly = false) (rs : List ρ) :
    open Classical in citing env o own cites rs = rs.filter (fun r => decide (Enters env o own [] (own r) ∧ (cites r).getD [] ≠ [])) := by
  unfold citing
  apply List.filter_congr
  intro r _
  have : Enters env o own rs (own r) ↔ Enters env o own [] (own r) := by unfold Enters; rw [hcore]; simp
  exact decide_eq_decide.2 (by rw [this])

/-- `networkCitation` without `coreOnly`, where the direction asked for is honoured: nodes, edges and weights. -/
theorem C112_citation_partial (env : Env) (o : Opts) (directed recordToCite : Bool) (info : Cite → Attrs) (own : ρ → Cite) (cites : ρ → Option (List Cite))
    (hcore : o.coreOnly = false) (hmode : DirectionOk o recordToCite) (hinfo : ∀ c, InfoOk (info c)) (part0 : List ρ) (parts : List (List ρ))
    (hown : ∀ r ∈ part0 ++ parts.flatten, HasAttr o.nodeType (own r) ∧ (own r).year ≠ none ∧ (own r).id ≠ [])
    (hattr : ∀ r ∈ part0 ++ parts.flatten, ∀ c ∈ keptCites env o own cites (part0 ++ parts.flatten) r, HasAttr o.nodeType c)
    (whole : List ρ) (hw : whole.Perm (part0 ++ parts.flatten)) :
    ∃ r g, mergeParts (fun rs => (networkCitation env o directed recordToCite info own cites rs).toOption.map (asGraph coAttrs)) part0 parts = some r ∧
      networkCitation env o directed recordToCite info own cites whole = .ok g ∧ SameEdges r (asGraph coAttrs g) := by
  classical
  let K := keptCites env o own cites []
  have hK : ∀ rs, keptCites env o own cites rs = K := fun rs => kept_const env o own cites hcore rs
  rw [hK] at hattr
  let C : List ρ → List ρ := fun rs => rs.filter (fun r => decide (Enters env o own [] (own r) ∧ (cites r).getD [] ≠ []))
  have hC : ∀ rs, citing env o own cites rs = C rs := fun rs => by
    rw [citing_const env o own cites hcore rs]
  let entries : ρ → List (Bool × Cite) := fun r => (true, own r) :: (K r).map (fun c => (false, c))
  let has : List ρ → NodeId → Prop := fun rs n => ∃ r ∈ C rs, ∃ p ∈ entries r, nodeName o.nodeType p.2 = n
  let wt : List ρ → NodeId → NodeId → Nat := fun rs u v =>
    ((C rs).map (fun r => headLinks directed recordToCite (nodeName o.nodeType (own r)) ((K r).map (nodeName o.nodeType)) u v)).sum
  let ok : ρ → Prop := fun r => (HasAttr o.nodeType (own r) ∧ (own r).year ≠ none ∧ (own r).id ≠ []) ∧ ∀ c ∈ K r, HasAttr o.nodeType c
  have hE : ∀ rs, (∀ r ∈ rs, ok r) → ∃ g, networkCitation env o directed recordToCite info own cites rs = .ok g ∧
      EdgeTally directed o.weighted (has rs) (wt rs) (asGraph coAttrs g) := by
    intro rs hr
    obtain ⟨g, e, h1, h2, h3, h4⟩ := C17_citation_partial env o directed recordToCite info own cites rs hmode
      (fun r h => ⟨(hr r h).1.1, (hr r h).1.2.1⟩) (fun _ r h => (hr r h).1.2.2) (fun r h c hc => (hr r h).2 c (by rwa [hK] at hc))
    rw [hK, hC] at h3 h4
    refine ⟨g, e, edge_tally coAttrs h1 h2 (fun n a ha => ?_) h3 (fun n => ?_)⟩
    · rw [h4] at ha
      obtain ⟨p, hp, rfl⟩ := Option.map_eq_some_iff.1 ha
      exact coAttrs_ok (hinfo _)
    · unfold hasNode
      rw [h4, Option.isSome_map, List.find?_isSome]
      simp only [has, entries, List.mem_flatMap, decide_eq_true_eq]
      constructor
      · rintro ⟨p, ⟨r, hr, hp⟩, e⟩; exact ⟨r, hr, p, hp, e⟩
      · rintro ⟨r, hr, p, hp, e⟩; exact ⟨p, ⟨r, hr, hp⟩, e⟩
  obtain ⟨r, h1, h2, _⟩ := parts_fold (d := directed) (wtd := o.weighted)
    (fun rs => (networkCitation env o directed recordToCite info own cites rs).toOption.map (asGraph coAttrs)) ok has wt
    (fun rs hr => by
      obtain ⟨g, e, h⟩ := hE rs hr
      exact ⟨_, by simp only [e, Except.toOption, Option.map_some], h⟩)
    (fun a b => by funext n; simp only [has, C, List.filter_append, List.mem_append, or_and_right, exists_or])
    (fun a b => by funext u v; simp only [wt, C, List.filter_append]; rw [sum_append']) part0 parts (fun r hr => ⟨hown r hr, hattr r hr⟩)
  obtain ⟨g, e, h⟩ := hE whole (fun r hr => ⟨hown r (hw.mem_iff.1 hr), hattr r (hw.mem_iff.1 hr)⟩)
  have hp : (C whole).Perm (C (part0 ++ parts.flatten)) := hw.filter _
  exact ⟨r, g, h1, e, same_edges h2 h (fun n => by simp only [has, hp.mem_iff]) (fun u v => (sum_perm (hp.map _)).symm)⟩

/-! ## What goes wrong -/

private def countOf {ν : Type} [DecidableEq ν] (g : Option (G ν)) (n : ν) : Option Val := (g.bind (fun g => g.node? n)).bind (fun a => a.get? "count")

private def onlyAU (_ : Nat) (t : String) : Option (FieldVal String) := if t = "AU" then some (.list ["A"]) else none

/-- The counts of `networkTwoMode` are not those of the whole: two records with the value A of the first tag and none of the second, one in each part. -/
theorem C112_two_mode_counts_wrong :
    let net := fun rs => some (asGraph netAttrs (networkTwoMode false true true true id id onlyAU "AU" "SO" rs))
    countOf (mergeParts net [0] [[1]]) "A" = none ∧ countOf (net [0, 1]) "A" = some (.num 1) := by decide +kernel

/-- Nor are those of `networkMultiMode`. -/
theorem C112_multi_mode_counts_wrong :
    let net := fun rs => some (asGraph netAttrs (networkMultiMode true true true (fun _ => false) id onlyAU ["AU", "SO"] rs))
    countOf (mergeParts net [0] [[1]]) "A" = none ∧ countOf (net [0, 1]) "A" = some (.num 1) := by decide +kernel

private def paper (id : String) : Cite where
  id := id.toList
  original := id.toList
  author := some (some id.toList)
  year := some (some 1990)
  journal := some (some "J".toList)
  V := none
  P := none
  misc := none
  bad := false

private def env0 : Env where
  upper s := s
  isJournal _ := true
  hash s := (String.ofList s).length

private def opts (core count weighted : Bool) : Opts := ⟨.full, false, false, .none, core, count, weighted⟩
private def own (r : Nat) : Cite := if r = 0 then paper "R" else if r = 1 then paper "SS" else paper "TTT"
private def chain (r : Nat) : Option (List Cite) := if r = 0 then some [paper "SS"] else some [paper "TTT"]

/-- The counts of `networkCitation` are not those of the whole: a record that is cited in one part and cites in another is counted twice, in the whole once. -/
theorem C112_citation_counts_wrong :
    let net := fun rs => ((networkCitation env0 (opts false true true) true true (fun _ => []) own chain rs).toOption.map (asGraph coAttrs))
    countOf (mergeParts net [0] [[1]]) (.str "SS".toList) = some (.num 2) ∧ countOf (net [0, 1]) (.str "SS".toList) = some (.num 1) := by decide +kernel

private def both (_ : Nat) : Option (List Cite) := some [paper "SS", paper "TTT"]

private def hasE (g : Option (G NodeId)) (u v : NodeId) : Bool := g.elim false (fun g => g.hasEdge u v)

/-- With `coreOnly` the citations of records of other parts are lost. -/
theorem C112_core_wrong :
    let net := fun rs => ((networkCoCitation env0 (opts true true true) (fun _ => []) own both rs).toOption.map (asGraph coAttrs))
    hasE (mergeParts net [0] [[1], [2]]) (.str "SS".toList) (.str "TTT".toList) = false ∧
      hasE (net [0, 1, 2]) (.str "SS".toList) (.str "TTT".toList) = true := by decide +kernel

/-- Bibliographic coupling joins records of different parts, so that it can not be made part by part. -/
theorem C112_coupling_wrong :
    let net := fun rs => ((networkBibCoupling env0 true (fun _ : Attrs => true) id (fun _ => []) own (fun _ => some [paper "XXXX"]) rs).toOption.map (asGraph coAttrs))
    hasE (mergeParts net [0] [[1]]) (.str "R".toList) (.str "SS".toList) = false ∧ hasE (net [0, 1]) (.str "R".toList) (.str "SS".toList) = true := by decide +kernel

private def infoOf {ν : Type} [DecidableEq ν] (g : Option (G ν)) (n : ν) : Option Val := (g.bind (fun g => g.node? n)).bind (fun a => a.get? "Title")

/-- Without counts the attributes of a node are those of the last part, not those of the first record: the target does not take precedence. -/
theorem C112_info_overwritten :
    let net := fun rs => some (asGraph coAttrs (networkCoAuthor true false false (fun _ : String => true) (fun _ => ["A"]) (fun r => [("Title", .str r)]) rs))
    infoOf (mergeParts net ["x"] [["y"]]) "A" = some (.str "y") ∧ infoOf (net ["x", "y"]) "A" = some (.str "x") := by decide +kernel

/-! ## Cases -/

private def words (r : Nat) (_ : Unit) : Option (FieldVal String) := if r = 0 then some (.list ["a", "b"]) else if r = 1 then some (.single "a") else some (.list ["b", "a"])

example : ∃ r, mergeParts (fun rs => some (asGraph netAttrs (networkMultiLevel true true id words [()] rs))) [0] [[1], [2]] = some r ∧
    countOf (some r) "a" = some (.num 3) ∧ (r.edge? "b" "a").bind (fun x => x.get? "weight") = some (.num 2) :=
  ⟨_, rfl, by decide +kernel⟩

example := C112_multi_level true true id words [()] [0] [[1], [2]] [2, 0, 1] (by decide)

example := C112_chunk (κ := Nat) (ε := String) (fun _ : Nat => "R") (Coll.fresh "RecordCollection" [5, 0, 1, 2] "x") (by decide) (by decide) 2 true true id words ()

private theorem ok_nil : InfoOk [] := ⟨Dict.WF_nil, rfl⟩
private theorem ok_title (s : String) : InfoOk [("Title", .str s)] := ⟨by simp [Dict.WF, Dict.keys], rfl⟩

example : ∃ r, mergeParts (fun rs => some (asGraph coAttrs (networkCoAuthor true false true (fun _ : String => true) (fun r => ["A", r]) (fun r => [("Title", .str r)]) rs))) ["B"] [["C"]] =
    some r ∧ infoOf (some r) "A" = some (.str "B") ∧ countOf (some r) "A" = some (.num 2) := ⟨_, rfl, by decide +kernel⟩

example := C112_coauthors true false true (fun _ : String => true) (fun r => ["A", r]) (fun r => [("Title", .str r)]) ok_title ["B"] [["C"]]

example := C112_coinvestigators true true (fun r : String => [("A", [("Title", .str r)]), (r, [])])
  (fun r p hp => by
    simp only [List.mem_cons, List.not_mem_nil, or_false] at hp
    rcases hp with rfl | rfl
    · exact ok_title r
    · exact ok_nil) ["B"] [["C"]]

example := C112_cocitations env0 (opts false true true) (fun _ => []) own both rfl (fun _ => ok_nil) [0] [[1], [2]] (fun _ _ _ _ => trivial)

example : (mergeParts (fun rs => ((networkCoCitation env0 (opts false true true) (fun _ => []) own both rs).toOption.map (asGraph coAttrs))) [0] [[1], [2]]).bind (fun r =>
    (r.edge? (.str "SS".toList) (.str "TTT".toList)).bind (fun x => x.get? "weight")) = some (.num 3) := by decide +kernel

example := C112_two_mode_partial true true true true id id (fun r t => if t = "AU" then words r () else some (.single "j")) "AU" "SO" [0] [[1], [2]] [1, 2, 0] (by decide)

example := C112_multi_mode_partial true true true (fun _ => false) id (fun r t => if t = "AU" then words r () else some (.single "j")) ["AU", "SO"] [0] [[1], [2]] [1, 2, 0] (by decide)

example := C112_citation_partial env0 (opts false true true) true true (fun _ => []) own chain rfl (.inr ⟨rfl, rfl⟩) (fun _ => ok_nil) [0] [[1]]
  (by intro r _; unfold own; split <;> [skip; split] <;> simp [paper, HasAttr, opts]) (fun _ _ _ _ => trivial) [1, 0] (by decide)

end Verif.Props.MergeNetworks
