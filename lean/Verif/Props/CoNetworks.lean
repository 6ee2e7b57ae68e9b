import Verif.Lemmas.CoNetworks

/-! # C15 and C49: co-authorship and co-investigator networks -/
set_option autoImplicit false
set_option linter.unusedSectionVars false
namespace Verif.Props
open Verif.Py Verif.Py.Graph Verif.Model.CoNetworks Verif.Model.Networks Verif.Spec

variable {ρ ν ι : Type} [DecidableEq ν] [Inhabited ι]

/-- Sum over the positions, counted from one, at which `n` stands in a list. -/
def positionSum (n : ν) (l : List ν) : Nat := (l.zipIdx.map (fun p => if p.1 = n then p.2 + 1 else 0)).sum

/-- The records that count: all, or those from journals. -/
def keptRecs (dropNonJournals : Bool) (isJournal : ρ → Bool) (recs : List ρ) : List ρ :=
  recs.filter (fun r => !dropNonJournals || isJournal r)

theorem coAuthor_eq (weighted dropNonJournals count : Bool) (isJournal : ρ → Bool) (authors : ρ → List ν) (info : ρ → ι)
    (recs : List ρ) : networkCoAuthor weighted dropNonJournals count isJournal authors info recs =
      ((keptRecs dropNonJournals isJournal recs).map (fun r => (authors r).map (fun a => (a, info r)))).foldl
        (fun g l => coRecord count weighted g l) (Graph.empty false) := by
  unfold networkCoAuthor keptRecs
  rw [List.foldl_map]
  generalize (Graph.empty false : CoNet ν ι) = g
  induction recs generalizing g with
  | nil => rfl
  | cons r recs ih =>
    rw [List.foldl_cons, ih, List.filter_cons]
    cases dropNonJournals <;> cases isJournal r <;> simp

/-- C15, edges and nodes: the edge between two authors has as weight the number of pairs of positions they hold together,
over the records that count, and is missing when there is none; the nodes are the authors of those records. -/
theorem C15_edges_nodes (weighted dropNonJournals count : Bool) (isJournal : ρ → Bool) (authors : ρ → List ν)
    (info : ρ → ι) (recs : List ρ) :
    let g := networkCoAuthor weighted dropNonJournals count isJournal authors info recs
    g.WF ∧ g.directed = false ∧
    (∀ u v, g.edge? u v = edgeFor weighted
      ((keptRecs dropNonJournals isJournal recs).map (fun r => pairsShared (authors r) u v)).sum) ∧
    (∀ n, g.hasNode n = true ↔ ∃ r ∈ keptRecs dropNonJournals isJournal recs, n ∈ authors r) := by
  rw [coAuthor_eq]
  obtain ⟨h1, h2, h3, h4⟩ := co_spec count weighted
    ((keptRecs dropNonJournals isJournal recs).map (fun r => (authors r).map (fun a => (a, info r))))
  refine ⟨h1, h2, fun u v => ?_, fun n => ?_⟩
  · rw [h3, List.map_map]
    congr 3
    funext r
    simp [Function.comp_def, List.map_map]
  · unfold hasNode
    rw [h4, Option.isSome_map, List.find?_isSome]
    simp only [List.mem_flatten, List.mem_map, decide_eq_true_eq]
    constructor
    · rintro ⟨p, ⟨l, ⟨r, hr, rfl⟩, hp⟩, rfl⟩
      obtain ⟨a, ha, rfl⟩ := List.mem_map.1 hp
      exact ⟨r, hr, ha⟩
    · rintro ⟨r, hr, hn⟩
      exact ⟨(n, info r), ⟨_, ⟨r, hr, rfl⟩, List.mem_map.2 ⟨n, hn, rfl⟩⟩, rfl⟩

/-- C15, attributes, exactly: the count of an author adds up, over the records that count, the positions (from one) the
author holds, and the information is that of the first of those records. -/
theorem C15_attributes (weighted dropNonJournals count : Bool) (isJournal : ρ → Bool) (authors : ρ → List ν)
    (info : ρ → ι) (recs : List ρ) (n : ν) :
    (networkCoAuthor weighted dropNonJournals count isJournal authors info recs).node? n =
      ((keptRecs dropNonJournals isJournal recs).find? (fun r => decide (n ∈ authors r))).map (fun r =>
        { count := if count then
            some ((keptRecs dropNonJournals isJournal recs).map (fun r => positionSum n (authors r))).sum else none,
          info := info r }) := by
  rw [coAuthor_eq, (co_spec count weighted _).2.2.2 n, List.map_map]
  generalize keptRecs dropNonJournals isJournal recs = ks
  have e1 : ks.map ((fun l : List (ν × ι) => posSum n (l.map Prod.fst)) ∘ fun r => (authors r).map (fun a => (a, info r))) =
      ks.map (fun r => positionSum n (authors r)) := by
    congr 1; funext r; simp [Function.comp_def, positionSum, posSum, List.map_map]
  have e2 : ((ks.map (fun r => (authors r).map (fun a => (a, info r)))).flatten.find? (fun p => decide (p.1 = n))).map Prod.snd =
      (ks.find? (fun r => decide (n ∈ authors r))).map info := by
    clear e1
    induction ks with
    | nil => rfl
    | cons r ks ih =>
      rw [List.map_cons, List.flatten_cons, List.find?_append, Option.map_or, ih, List.find?_cons]
      by_cases hn : n ∈ authors r
      · have : (((authors r).map (fun a => (a, info r))).find? (fun p => decide (p.1 = n))).map Prod.snd = some (info r) := by
          cases hf : ((authors r).map (fun a => (a, info r))).find? (fun p => decide (p.1 = n)) with
          | none =>
            rw [List.find?_eq_none] at hf
            exact absurd (decide_eq_true rfl) (hf (n, info r) (List.mem_map.2 ⟨n, hn, rfl⟩))
          | some p =>
            obtain ⟨a, _, rfl⟩ := List.mem_map.1 (List.mem_of_find?_eq_some hf); rfl
        rw [this]; simp [hn]
      · have : ((authors r).map (fun a => (a, info r))).find? (fun p => decide (p.1 = n)) = none := by
          rw [List.find?_eq_none]
          intro p hp
          obtain ⟨a, ha, rfl⟩ := List.mem_map.1 hp
          simp only [decide_eq_true_eq]
          rintro rfl; exact hn ha
        rw [this]; simp [hn]
  rw [e1]
  have := congrArg (Option.map (fun i => (CoAttr.mk (if count then
            some (ks.map (fun r => positionSum n (authors r))).sum else none) i : CoAttr ι))) e2
  rw [Option.map_map, Option.map_map] at this
  exact this

theorem le_positionSum (n : ν) (l : List ν) : (if n ∈ l then 1 else 0) ≤ positionSum n l := by
  induction l with
  | nil => simp [positionSum]
  | cons a l ih =>
    have := posSum_cons n a l
    unfold positionSum at ih ⊢
    unfold posSum at this
    rw [this]
    by_cases ha : a = n
    · simp [ha]
    · have ha' : ¬ n = a := fun h => ha h.symm
      simp only [ha, if_false, List.mem_cons, ha', false_or]; omega

theorem positionSum_eq_iff (n : ν) (l : List ν) : positionSum n l = (if n ∈ l then 1 else 0) ↔ n ∉ l.tail := by
  cases l with
  | nil => simp [positionSum]
  | cons a l =>
    have := posSum_cons n a l
    have h0 := le_positionSum n l
    unfold positionSum at h0 ⊢
    unfold posSum at this
    rw [this, List.tail_cons]
    by_cases hl : n ∈ l
    · have hc : 0 < l.count n := List.count_pos_iff.2 hl
      simp only [hl, if_true] at h0
      simp only [hl, List.mem_cons, or_true, if_true, not_true_eq_false, iff_false]
      omega
    · have hc : l.count n = 0 := List.count_eq_zero.2 hl
      have hz : ((l.zipIdx).map (fun p => if p.1 = n then p.2 + 1 else 0)).sum = 0 := by
        rw [sum_eq_zero_iff]
        intro x hx
        obtain ⟨p, hp, rfl⟩ := List.mem_map.1 hx
        rw [if_neg]
        rintro rfl
        obtain ⟨_, _, h⟩ := List.mem_zipIdx hp
        apply hl
        rw [h]; exact List.getElem_mem _
      rw [hc, hz]
      by_cases ha : a = n
      · simp [ha, hl]
      · have ha' : ¬ n = a := fun h => ha h.symm
        simp [ha, ha', hl]

theorem countP_eq_sum {A : Type} (p : A → Prop) [DecidablePred p] (l : List A) :
    l.countP (fun a => decide (p a)) = (l.map (fun a => if p a then 1 else 0)).sum := by
  induction l with
  | nil => rfl
  | cons a l ih => rw [List.countP_cons, ih, List.map_cons, List.sum_cons, Nat.add_comm]; simp

theorem sum_le_eq {A : Type} (f g : A → Nat) (l : List A) (hle : ∀ a ∈ l, f a ≤ g a) :
    (l.map g).sum = (l.map f).sum ↔ ∀ a ∈ l, g a = f a := by
  have le : ∀ l : List A, (∀ a ∈ l, f a ≤ g a) → (l.map f).sum ≤ (l.map g).sum := by
    intro l
    induction l with
    | nil => simp
    | cons a l ih =>
      intro h
      have h1 := h a (by simp)
      have h2 := ih (fun b hb => h b (by simp [hb]))
      simp; omega
  induction l with
  | nil => simp
  | cons a l ih =>
    have h1 := hle a (by simp)
    have h2 := le l (fun b hb => hle b (by simp [hb]))
    have h3 := ih (fun b hb => hle b (by simp [hb]))
    simp only [List.map_cons, List.sum_cons, List.mem_cons, forall_eq_or_imp]
    refine ⟨fun h => ?_, fun h => ?_⟩
    · have e : (l.map g).sum = (l.map f).sum := by omega
      exact ⟨by omega, h3.1 e⟩
    · have e := h3.2 h.2
      omega

/-- C15, counts: the count of an author is the number of papers they wrote exactly when they are never listed after
another name. (The claim without that condition is false of the code.) -/
theorem C15_counts_partial (weighted dropNonJournals : Bool) (isJournal : ρ → Bool) (authors : ρ → List ν)
    (info : ρ → ι) (recs : List ρ) (n : ν) (a : CoAttr ι)
    (ha : (networkCoAuthor weighted dropNonJournals true isJournal authors info recs).node? n = some a) :
    a.count = some ((keptRecs dropNonJournals isJournal recs).countP (fun r => decide (n ∈ authors r))) ↔
      ∀ r ∈ keptRecs dropNonJournals isJournal recs, n ∉ (authors r).tail := by
  rw [C15_attributes] at ha
  obtain ⟨r, _, rfl⟩ := Option.map_eq_some_iff.1 ha
  simp only [if_true, Option.some.injEq]
  generalize keptRecs dropNonJournals isJournal recs = ks
  rw [countP_eq_sum, sum_le_eq _ _ _ (fun r _ => le_positionSum n (authors r))]
  simp only [positionSum_eq_iff]

/-- C15, counts, the failure: in a single paper by A, B and C the last two get the counts 2 and 3. -/
theorem C15_counts_wrong :
    let g := networkCoAuthor true false true (fun _ => true) (fun _ : Unit => ["A", "B", "C"]) (fun _ => ()) [()]
    g.node? "A" = some ⟨some 1, ()⟩ ∧ g.node? "B" = some ⟨some 2, ()⟩ ∧ g.node? "C" = some ⟨some 3, ()⟩ := by decide

private def auth3 (r : Nat) : List String := if r = 0 then ["A", "B"] else if r = 1 then ["A"] else ["C"]
private def jour3 (r : Nat) : Bool := r != 2

example : let g := networkCoAuthor true true true jour3 auth3 (fun r => r) [0, 1, 2]
    g.node? "A" = some ⟨some 2, 0⟩ ∧ g.node? "C" = none ∧ g.edge? "B" "A" = some (some 1) ∧
    ∀ r ∈ keptRecs true jour3 [0, 1, 2], "A" ∉ (auth3 r).tail := by decide

/-! ## C49 -/

/-- C49, edges and nodes of the co-investigator network. -/
theorem C49_edges_nodes (count weighted : Bool) (invest : ρ → List (ν × ι)) (grants : List ρ) :
    let g := networkCoInvestigator count weighted invest grants
    g.WF ∧ g.directed = false ∧
    (∀ u v, g.edge? u v = edgeFor weighted (grants.map (fun G => pairsShared ((invest G).map Prod.fst) u v)).sum) ∧
    (∀ n, g.hasNode n = true ↔ ∃ G ∈ grants, n ∈ (invest G).map Prod.fst) := by
  have hg : networkCoInvestigator count weighted invest grants =
      (grants.map invest).foldl (fun g l => coRecord count weighted g l) (Graph.empty false) := by
    rw [List.foldl_map]; rfl
  rw [hg]
  obtain ⟨h1, h2, h3, h4⟩ := co_spec count weighted (grants.map invest)
  refine ⟨h1, h2, fun u v => ?_, fun n => ?_⟩
  · rw [h3, List.map_map]; rfl
  · unfold hasNode
    rw [h4, Option.isSome_map, List.find?_isSome]
    simp only [List.mem_flatten, List.mem_map, decide_eq_true_eq]
    constructor
    · rintro ⟨p, ⟨l, ⟨G, hG, rfl⟩, hp⟩, rfl⟩; exact ⟨G, hG, p, hp, rfl⟩
    · rintro ⟨G, hG, p, hp, rfl⟩; exact ⟨p, ⟨_, ⟨G, hG, rfl⟩, hp⟩, rfl⟩

/-- C49, attributes, exactly: counts add up positions, and the field is the one of the first occurrence. -/
theorem C49_attributes (count weighted : Bool) (invest : ρ → List (ν × ι)) (grants : List ρ) (n : ν) :
    (networkCoInvestigator count weighted invest grants).node? n =
      ((grants.flatMap invest).find? (fun p => decide (p.1 = n))).map (fun p =>
        { count := if count then some (grants.map (fun G => positionSum n ((invest G).map Prod.fst))).sum else none,
          info := p.2 }) := by
  have hg : networkCoInvestigator count weighted invest grants =
      (grants.map invest).foldl (fun g l => coRecord count weighted g l) (Graph.empty false) := by
    rw [List.foldl_map]; rfl
  rw [hg, (co_spec count weighted _).2.2.2 n, List.map_map, ← List.flatMap_def]
  rfl

/-- C49, counts: an investigator's count is the number of grants they hold exactly when never listed after another name. -/
theorem C49_counts_partial (weighted : Bool) (invest : ρ → List (ν × ι)) (grants : List ρ) (n : ν) (a : CoAttr ι)
    (ha : (networkCoInvestigator true weighted invest grants).node? n = some a) :
    a.count = some (grants.countP (fun G => decide (n ∈ (invest G).map Prod.fst))) ↔
      ∀ G ∈ grants, n ∉ ((invest G).map Prod.fst).tail := by
  rw [C49_attributes] at ha
  obtain ⟨r, _, rfl⟩ := Option.map_eq_some_iff.1 ha
  simp only [if_true, Option.some.injEq]
  rw [countP_eq_sum, sum_le_eq _ _ _ (fun r _ => le_positionSum n _)]
  simp only [positionSum_eq_iff]

/-- C49, counts, the failure. -/
theorem C49_counts_wrong :
    let g := networkCoInvestigator true true (fun _ : Unit => [("A", "f1"), ("B", "f2")]) [()]
    g.node? "A" = some ⟨some 1, "f1"⟩ ∧ g.node? "B" = some ⟨some 2, "f2"⟩ ∧ g.edge? "A" "B" = some (some 1) := by decide

end Verif.Props
