import Verif.Lemmas.NetworkTypes
import Verif.Props.NetworkAttrs

/-! # C13, C14, C89: the types of nodes, exactly, and what the options leave out -/
set_option autoImplicit false
set_option linter.unusedSectionVars false
set_option linter.unusedSimpArgs false
namespace Verif.Props.NetworkTypes
open Verif.Py Verif.Py.Graph Verif.Spec Verif.Model.Series Verif.Lemmas.NetworkTypes Verif.Model.NetworkAttrs
open Verif.Model.Networks hiding networkMultiLevel networkOneMode

variable {ρ α ν : Type} [DecidableEq ν]

/-- The tags a node occurs under, one for each occurrence, in the order of visiting: in a record those of the first tag come
before those of the second. -/
def tagsTwo (ident1 ident2 : α → ν) (field : ρ → String → Option (FieldVal α)) (tag1 tag2 : String) (n : ν) (r : ρ) : List String :=
  List.replicate ((names ident1 field [tag1] r).count n) tag1 ++ List.replicate ((names ident2 field [tag2] r).count n) tag2

/-- The tags a node occurs under, one for each occurrence, in the order of visiting and of the tags. -/
def tagsMany (falsy : α → Bool) (ident : α → ν) (field : ρ → String → Option (FieldVal α)) (tags : List String) (n : ν) (r : ρ) :
    List String :=
  (namesPerTag falsy ident field tags r).flatMap (fun c => List.replicate (c.2.count n) c.1)

theorem map_tagsOn (ident1 ident2 : α → ν) (field : ρ → String → Option (FieldVal α)) (tag1 tag2 : String) (n : ν) (recs : List ρ) :
    (tagsOn n (recs.flatMap (fun r => twoEvs (names ident1 field [tag1] r) (names ident2 field [tag2] r)))).map
      (fun b => if b then tag2 else tag1) = recs.flatMap (tagsTwo ident1 ident2 field tag1 tag2 n) := by
  rw [tagsOn_flatMap, List.map_flatMap]
  congr 1
  funext r
  rw [tagsOn_twoEvs, List.map_append, List.map_replicate, List.map_replicate]
  rfl

theorem map_or_head {β γ : Type} (g : β → γ) (l : List β) (k : Nat) :
    ((l.drop k).head?.or l.head?).map g = ((l.map g).drop k).head?.or (l.map g).head? := by
  rw [← List.map_drop, List.head?_map, List.head?_map]
  cases (l.drop k).head? <;> simp

/-- C13, types, exactly: without counting the type of a node is the tag of its first occurrence. With counting, it is the tag of
the first occurrence that is counted; of the first one if none is. It is never more than one tag, though the documentation
says it is both when both tags give the node. -/
theorem C13_types_exact (directed nodeCount edgeWeight : Bool) (ident1 ident2 : α → ν)
    (field : ρ → String → Option (FieldVal α)) (tag1 tag2 : String) (recs : List ρ) (n : ν) (a : NodeAttr)
    (ha : (networkTwoMode directed nodeCount edgeWeight true ident1 ident2 field tag1 tag2 recs).node? n = some a) :
    let occ := recs.flatMap (tagsTwo ident1 ident2 field tag1 tag2 n)
    ∃ first, recs.find? (fun r => decide (n ∈ names ident1 field [tag1] r ∨ n ∈ names ident2 field [tag2] r)) = some first ∧
      a.type = if nodeCount = true ∧ names ident2 field [tag2] first = [] then (occ.drop 1).head?.or occ.head? else occ.head? := by
  obtain ⟨h1, h2, h3, h4⟩ := run_spec edgeWeight directed (twoNode nodeCount true tag1 tag2)
    (recs.flatMap (fun r => twoEvs (names ident1 field [tag1] r) (names ident2 field [tag2] r)))
  have hnode : (networkTwoMode directed nodeCount edgeWeight true ident1 ident2 field tag1 tag2 recs).hasNode n = true := by
    unfold hasNode; rw [ha]; rfl
  obtain ⟨r, hr, hin⟩ := ((C13_edges_nodes directed nodeCount edgeWeight true ident1 ident2 field tag1 tag2 recs).2.2.2 n).1 hnode
  rw [← twoMode_run] at h4
  rw [h4] at ha
  cases hfi : recs.find? (fun r => decide (n ∈ names ident1 field [tag1] r ∨ n ∈ names ident2 field [tag2] r)) with
  | none => rw [List.find?_eq_none] at hfi; exact absurd (by simpa using hin) (hfi r hr)
  | some first =>
    refine ⟨first, rfl, ?_⟩
    cases nodeCount with
    | true =>
      have := late_fold (late_twoNode tag1 tag2) n _ a ha
      rw [find?_records _ n (fun b => !b) recs
        (fun r => decide (n ∈ names ident1 field [tag1] r ∨ n ∈ names ident2 field [tag2] r))
        (fun r => by rw [mentions_twoEvs]; simp), hfi, Option.bind_some,
        lossy_twoEvs n _ _ (by simpa using List.find?_some hfi), map_or_head, map_tagsOn] at this
      rw [this]
      by_cases hc : names ident2 field [tag2] first = []
      · simp [hc]
      · simp [hc]
    | false =>
      have := fold_type (f := twoNode false true tag1 tag2)
        (fun (o : Option String) (b : Bool) => o.or (some (if b then tag2 else tag1))) (plain_twoNode tag1 tag2) n
        (recs.flatMap (fun r => twoEvs (names ident1 field [tag1] r) (names ident2 field [tag2] r))) none
      rw [ha, Option.bind_some, foldl_first, ← List.head?_map, map_tagsOn] at this
      simpa using this

/-- C13, types, the failure: a node that both tags give has only one of them as its type, and which one depends on the order of
visiting; and with counting even a node's first tag can be replaced. -/
theorem C13_types_wrong : ∃ (field : Nat → String → Option (FieldVal String)),
    (networkTwoMode false true true true id id field "AU" "AF" [0]).node? "A" = some ⟨some 2, some "AU"⟩ ∧
    (networkTwoMode false true true true id id field "AU" "AF" [1, 2]).node? "A" = some ⟨some 1, some "AF"⟩ ∧
    (networkTwoMode false false true true id id field "AU" "AF" [1, 2]).node? "A" = some ⟨none, some "AU"⟩ ∧
    (networkTwoMode false false true true id id field "AU" "AF" [2, 1]).node? "A" = some ⟨none, some "AF"⟩ :=
  ⟨fun r t => if r = 0 then some (.single "A") else if r = 1 then (if t = "AU" then some (.single "A") else none) else
    (if t = "AF" then some (.single "A") else none), by decide⟩

/-- C13: without counting no node has a count, and without types no node has a type. -/
theorem C13_left_out (directed nodeCount edgeWeight recordType : Bool) (ident1 ident2 : α → ν)
    (field : ρ → String → Option (FieldVal α)) (tag1 tag2 : String) (recs : List ρ) (n : ν) (a : NodeAttr)
    (ha : (networkTwoMode directed nodeCount edgeWeight recordType ident1 ident2 field tag1 tag2 recs).node? n = some a) :
    (nodeCount = false → a.count = none) ∧ (recordType = false → a.type = none) := by
  obtain ⟨h1, h2, h3, h4⟩ := run_spec edgeWeight directed (twoNode nodeCount recordType tag1 tag2)
    (recs.flatMap (fun r => twoEvs (names ident1 field [tag1] r) (names ident2 field [tag2] r)))
  rw [← twoMode_run] at h4
  rw [h4] at ha
  constructor
  · rintro rfl
    have := fold_count (uncounted_twoNode recordType tag1 tag2) n _ none rfl ▸ congrArg (fun o => Option.bind o NodeAttr.count) ha
    simpa using this.symm
  · rintro rfl
    have := fold_type (f := twoNode nodeCount false tag1 tag2) (fun o _ => o) (untyped_twoNode nodeCount tag1 tag2) n
      (recs.flatMap (fun r => twoEvs (names ident1 field [tag1] r) (names ident2 field [tag2] r))) none
    rw [ha, foldl_keep] at this
    simpa using this

/-- C14, types, exactly: with counting, the type of a node is the tag of its first occurrence that is counted; of the first one
if none is. Without counting it is the tags of all occurrences, one after another in one text. -/
theorem C14_types_exact (nodeCount edgeWeight : Bool) (falsy : α → Bool) (ident : α → ν)
    (field : ρ → String → Option (FieldVal α)) (tags : List String) (recs : List ρ) (n : ν) (a : NodeAttr)
    (ha : (networkMultiMode nodeCount edgeWeight true falsy ident field tags recs).node? n = some a) :
    let occ := recs.flatMap (tagsMany falsy ident field tags n)
    ∃ first, recs.find? (fun r => (namesPerTag falsy ident field tags r).any (fun c => decide (n ∈ c.2))) = some first ∧
      a.type =
        if nodeCount then
          (if (namesPerTag falsy ident field tags first).length = 1 then (occ.drop 1).head?.or occ.head? else occ.head?)
        else some (occ.foldl (· ++ ·) "") := by
  obtain ⟨h1, h2, h3, h4⟩ := run_spec edgeWeight false (multiModeNode nodeCount true)
    (recs.flatMap (fun r => modeEvs (namesPerTag falsy ident field tags r)))
  have hnode : (networkMultiMode nodeCount edgeWeight true falsy ident field tags recs).hasNode n = true := by
    unfold hasNode; rw [ha]; rfl
  obtain ⟨r, hr, c, hc, hin⟩ := ((C14_edges_nodes nodeCount edgeWeight true falsy ident field tags recs).2.2.2 n).1 hnode
  rw [← multiMode_run] at h4
  rw [h4] at ha
  have htags : tagsOn n (recs.flatMap (fun r => modeEvs (namesPerTag falsy ident field tags r))) =
      recs.flatMap (tagsMany falsy ident field tags n) := by
    rw [tagsOn_flatMap]
    congr 1
    funext r
    rw [tagsOn_modeEvs]; rfl
  cases hfi : recs.find? (fun r => (namesPerTag falsy ident field tags r).any (fun c => decide (n ∈ c.2))) with
  | none =>
    rw [List.find?_eq_none] at hfi
    exact absurd (List.any_eq_true.2 ⟨c, hc, by simpa using hin⟩) (hfi r hr)
  | some first =>
    refine ⟨first, rfl, ?_⟩
    cases nodeCount with
    | true =>
      have := late_fold late_multiModeNode n _ a ha
      have hm := List.find?_some hfi
      simp only [List.any_eq_true, decide_eq_true_eq] at hm
      have hne : ∀ c ∈ namesPerTag falsy ident field tags first, c.2 ≠ [] := by
        intro c hc
        obtain ⟨t, ht, rfl⟩ := List.mem_map.1 hc
        have := (List.mem_filter.1 ht).2
        cases hft : field first t with
        | none => simp [hft] at this
        | some fv =>
          cases fv with
          | single v => simp [vals, hft]
          | list vs => simp [hft] at this; simp [vals, hft, this]
      rw [find?_records _ n (fun _ => true) recs
        (fun r => (namesPerTag falsy ident field tags r).any (fun c => decide (n ∈ c.2)))
        (fun r => by rw [mentions_modeEvs]; simp), hfi, Option.bind_some, lossy_modeEvs n _ hne hm, map_or_head, htags] at this
      rw [this]
      by_cases hl : (namesPerTag falsy ident field tags first).length = 1
      · simp [hl]
      · simp [hl]
    | false =>
      have := fold_type (f := multiModeNode false true)
        (fun (o : Option String) (t : String) => some (o.getD "" ++ t)) joined_multiModeNode n
        (recs.flatMap (fun r => modeEvs (namesPerTag falsy ident field tags r))) none
      rw [ha, Option.bind_some, foldl_joined, htags] at this
      have hnil : recs.flatMap (tagsMany falsy ident field tags n) ≠ [] := by
        intro h0
        have h5 := List.flatMap_eq_nil_iff.1 (List.flatMap_eq_nil_iff.1 h0 r hr) c hc
        exact List.count_eq_zero.1 (by simpa using h5) hin
      rw [if_neg hnil] at this
      simpa using this

/-- C14: without counting no node has a count, and without types no node has a type. -/
theorem C14_left_out (nodeCount edgeWeight recordType : Bool) (falsy : α → Bool) (ident : α → ν)
    (field : ρ → String → Option (FieldVal α)) (tags : List String) (recs : List ρ) (n : ν) (a : NodeAttr)
    (ha : (networkMultiMode nodeCount edgeWeight recordType falsy ident field tags recs).node? n = some a) :
    (nodeCount = false → a.count = none) ∧ (recordType = false → a.type = none) := by
  obtain ⟨h1, h2, h3, h4⟩ := run_spec edgeWeight false (multiModeNode nodeCount recordType)
    (recs.flatMap (fun r => modeEvs (namesPerTag falsy ident field tags r)))
  rw [← multiMode_run] at h4
  rw [h4] at ha
  constructor
  · rintro rfl
    have := fold_count (uncounted_multiModeNode recordType) n _ none rfl ▸ congrArg (fun o => Option.bind o NodeAttr.count) ha
    simpa using this.symm
  · rintro rfl
    have := fold_type (f := multiModeNode nodeCount false) (fun o _ => o) (untyped_multiModeNode nodeCount) n
      (recs.flatMap (fun r => modeEvs (namesPerTag falsy ident field tags r))) none
    rw [ha, foldl_keep] at this
    simpa using this

/-- C89, two modes: without counting no node has a count, and without types no node has a type. -/
theorem C89_two_mode_left_out [DecidableEq α] (directed nodeCount edgeWeight recordType : Bool) (ident1 ident2 : α → ν)
    (field : ρ → String → Option (FieldVal α)) (tag1 tag2 edgeTag : String) (recs : List ρ) (n : ν) (a : NodeAttr)
    (ha : (networkTwoModeKeyed directed nodeCount edgeWeight recordType ident1 ident2 field tag1 tag2 edgeTag recs).node? n = some a) :
    (nodeCount = false → a.count = none) ∧ (recordType = false → a.type = none) := by
  obtain ⟨-, -, -, h4⟩ := MultiGraph.run_spec edgeWeight directed (twoNode nodeCount recordType tag1 tag2)
    (recs.flatMap (fun r => twoKeyEvs (vals (field r edgeTag)) (names ident1 field [tag1] r) (names ident2 field [tag2] r)))
  rw [← NetworkAttrs.twoModeKeyed_run] at h4
  rw [h4] at ha
  constructor
  · rintro rfl
    have := fold_count (uncounted_twoNode recordType tag1 tag2) n _ none rfl ▸ congrArg (fun o => Option.bind o NodeAttr.count) ha
    simpa using this.symm
  · rintro rfl
    have := fold_type (f := twoNode nodeCount false tag1 tag2) (fun o _ => o) (untyped_twoNode nodeCount tag1 tag2) n
      ((recs.flatMap (fun r => twoKeyEvs (vals (field r edgeTag)) (names ident1 field [tag1] r) (names ident2 field [tag2] r))).map
        MultiGraph.Ev.plain) none
    rw [ha, foldl_keep] at this
    simpa using this

private def fl : Nat → String → Option (FieldVal String) := fun r t =>
  if t = "AF" then (if r = 1 then none else some (.list ["A", "B"])) else if t = "AU" then (if r = 0 then none else some (.single "A"))
  else none

example : (networkTwoMode false true true true id id fl "AU" "AF" [0, 1]).node? "A" = some ⟨some 2, some "AF"⟩ ∧
    (networkTwoMode false true true true id id fl "AU" "AF" [1, 0]).node? "A" = some ⟨some 1, some "AF"⟩ ∧
    [1, 0].flatMap (tagsTwo id id fl "AU" "AF" "A") = ["AU", "AF"] ∧
    (networkMultiMode false true true (fun s => s == "") id fl ["AU", "AF"] [1, 0, 2]).node? "A" =
      some ⟨none, some "AUAFAUAF"⟩ ∧
    (networkMultiMode true true true (fun s => s == "") id fl ["AU", "AF"] [1, 0, 2]).node? "A" = some ⟨some 3, some "AF"⟩ ∧
    (networkTwoModeKeyed false false true false id id fl "AU" "AF" "AF" [0, 2]).node? "A" = some ⟨none, none⟩ := by decide

end Verif.Props.NetworkTypes
