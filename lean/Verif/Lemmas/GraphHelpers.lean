import Verif.Model.GraphHelpers
import Mathlib.Algebra.BigOperators.Group.List.Basic
import Mathlib.Algebra.BigOperators.Group.List.Lemmas
import Mathlib.Tactic.Abel

/-! # Lemmas for `Model/GraphHelpers` -/
set_option autoImplicit false
set_option linter.unusedSectionVars false
set_option linter.unusedSimpArgs false
namespace Verif.Model.GraphHelpers
open Verif.Py Verif.Py.Graph

variable {ν : Type} [DecidableEq ν]

theorem getE_mem {B : Type} {d : Bool} {l : List ((ν × ν) × B)} {p : ν × ν} {b : B} (h : getE d l p = some b) :
    ∃ e ∈ l, sameEdge d e.1 p = true ∧ e.2 = b := by
  induction l with
  | nil => simp [getE] at h
  | cons e l ih =>
    obtain ⟨k, b'⟩ := e
    unfold getE at h
    split at h
    · rename_i hk; exact ⟨(k, b'), by simp, hk, by simpa using h⟩
    · obtain ⟨e, h1, h2⟩ := ih h; exact ⟨e, by simp [h1], h2⟩

theorem getE_of_mem {B : Type} {d : Bool} {l : List ((ν × ν) × B)} (hl : l.Pairwise (fun a b => sameEdge d a.1 b.1 = false))
    {e : (ν × ν) × B} (he : e ∈ l) {p : ν × ν} (h : sameEdge d e.1 p = true) : getE d l p = some e.2 := by
  induction l with
  | nil => simp at he
  | cons x l ih =>
    obtain ⟨k, b'⟩ := x
    rw [List.pairwise_cons] at hl
    unfold getE
    rcases List.mem_cons.1 he with rfl | he
    · simp [h]
    · have hk : ¬ sameEdge d k p = true := by
        intro hk
        have := hl.1 e he
        rw [sameEdge_trans hk (sameEdge_symm h)] at this
        cases this
      simp only [hk]
      exact ih hl.2 he

theorem edge?_eq_some_iff {A B : Type} {g : Graph ν A B} (hg : g.WF) (u v : ν) (b : B) :
    g.edge? u v = some b ↔ ∃ e ∈ g.edges, sameEdge g.directed e.1 (u, v) = true ∧ e.2 = b := by
  constructor
  · exact getE_mem
  · rintro ⟨e, h1, h2, rfl⟩; exact getE_of_mem hg.edges h1 h2

theorem edge?_of_mem {A B : Type} {g : Graph ν A B} (hg : g.WF) {e : (ν × ν) × B} (he : e ∈ g.edges) :
    g.edge? e.1.1 e.1.2 = some e.2 := (edge?_eq_some_iff hg _ _ _).2 ⟨e, he, sameEdge_refl _ _, rfl⟩

theorem WF_filterEdges {A B : Type} {g : Graph ν A B} (hg : g.WF) (f : (ν × ν) × B → Bool) :
    ({ g with edges := g.edges.filter f } : Graph ν A B).WF :=
  ⟨hg.nodes, hg.edges.filter _, fun e he => hg.ends e (List.mem_of_mem_filter he)⟩

theorem WF_removeEdges {g : G ν} (hg : g.WF) (es : List (ν × ν)) : (removeEdges g es).WF := WF_filterEdges hg _

theorem edge?_removeEdges {g : G ν} (hg : g.WF) (es : List (ν × ν)) (u v : ν) (a : Attrs) :
    (removeEdges g es).edge? u v = some a ↔ g.edge? u v = some a ∧ ∀ p ∈ es, sameEdge g.directed p (u, v) = false := by
  rw [edge?_eq_some_iff (WF_removeEdges hg es), edge?_eq_some_iff hg]
  simp only [removeEdges, List.mem_filter, Bool.not_eq_true', List.any_eq_false]
  constructor
  · rintro ⟨e, ⟨h1, h2⟩, h3, h4⟩
    refine ⟨⟨e, h1, h3, h4⟩, ?_⟩
    intro p hp
    cases hs : sameEdge g.directed p (u, v) with
    | false => rfl
    | true => exact absurd (sameEdge_trans hs (sameEdge_symm h3)) (h2 p hp)
  · rintro ⟨⟨e, h1, h3, h4⟩, h5⟩
    refine ⟨e, ⟨h1, ?_⟩, h3, h4⟩
    intro p hp hs
    have := h5 p hp
    rw [sameEdge_trans hs h3] at this
    cases this

theorem get?_filter {α β : Type} [DecidableEq α] (f : α → Bool) (d : Dict α β) (a : α) :
    Dict.get? (List.filter (fun p => f p.1) d) a = if f a then d.get? a else none := by
  induction d with
  | nil => simp
  | cons x d ih =>
    obtain ⟨k, v⟩ := x
    by_cases hk : f k = true
    · simp only [List.filter_cons, hk, if_true, Dict.get?]
      by_cases h : k = a
      · subst h; simp [hk]
      · simp [h, ih]
    · simp only [List.filter_cons, hk, Dict.get?]
      by_cases h : k = a
      · subst h; simp [hk, ih]
      · simp [h, ih]

theorem node?_removeNodes (g : G ν) (ns : List ν) (n : ν) :
    (removeNodes g ns).node? n = if n ∈ ns then none else g.node? n := by
  unfold removeNodes node?
  have := get?_filter (fun x => decide (x ∉ ns)) g.nodes n
  simp only [] at this ⊢
  rw [this]
  by_cases h : n ∈ ns <;> simp [h]

theorem WF_removeNodes {g : G ν} (hg : g.WF) (ns : List ν) : (removeNodes g ns).WF := by
  refine ⟨?_, hg.edges.filter _, ?_⟩
  · have := hg.nodes
    unfold Dict.WF Dict.keys at *
    exact this.sublist (List.filter_sublist.map _)
  · intro e he
    simp only [removeNodes, List.mem_filter, Bool.and_eq_true, decide_eq_true_eq] at he
    have h := hg.ends e he.1
    unfold hasNode at *
    rw [node?_removeNodes, node?_removeNodes, if_neg he.2.1, if_neg he.2.2]
    exact h

theorem edge?_removeNodes {g : G ν} (hg : g.WF) (ns : List ν) (u v : ν) (a : Attrs) :
    (removeNodes g ns).edge? u v = some a ↔ g.edge? u v = some a ∧ u ∉ ns ∧ v ∉ ns := by
  rw [edge?_eq_some_iff (WF_removeNodes hg ns), edge?_eq_some_iff hg]
  simp only [removeNodes, List.mem_filter, Bool.and_eq_true, decide_eq_true_eq]
  have key : ∀ e : (ν × ν) × Attrs, sameEdge g.directed e.1 (u, v) = true →
      ((e.1.1 ∉ ns ∧ e.1.2 ∉ ns) ↔ (u ∉ ns ∧ v ∉ ns)) := by
    intro e h
    rw [sameEdge_iff] at h
    rcases h with h | ⟨_, h1, h2⟩
    · rw [h]
    · simp only [] at h1 h2; rw [h1, h2]; tauto
  constructor
  · rintro ⟨e, ⟨h1, h2⟩, h3, h4⟩; exact ⟨⟨e, h1, h3, h4⟩, (key e h3).1 h2⟩
  · rintro ⟨⟨e, h1, h3, h4⟩, h5⟩; exact ⟨e, ⟨h1, (key e h3).2 h5⟩, h3, h4⟩

/-! ## dropEdges -/

/-- The weight is readable: a number, or missing and that is allowed. -/
def Readable (param : String) (ignore : Bool) (a : Attrs) : Prop :=
  (∃ n, a.get? param = some (.num n)) ∨ (a.get? param = none ∧ ignore = true)

/-- The weight is a number outside the bounds. -/
def outside (lo hi : Option Int) (param : String) (a : Attrs) : Bool :=
  match a.get? param with
  | some (.num n) => above hi n || below lo n
  | _ => false

theorem dropLoop_ok (lo hi : Option Int) (param : String) (ig : Bool) (l : List ((ν × ν) × Attrs)) (acc : List (ν × ν)) :
    (∀ e ∈ l, Readable param ig e.2) →
      dropLoop lo hi param ig l acc = .ok (acc ++ (l.filter (fun e => outside lo hi param e.2)).map Prod.fst) := by
  induction l generalizing acc with
  | nil => intro _; simp [dropLoop]
  | cons e l ih =>
    intro h
    have ih := fun acc => ih acc (fun e he => h e (by simp [he]))
    unfold dropLoop
    rcases h e (by simp) with ⟨n, hn⟩ | ⟨hn, hi'⟩
    · have ho : outside lo hi param e.2 = (above hi n || below lo n) := by simp [outside, hn]
      simp only [hn, ih, ho, List.filter_cons]
      by_cases hc : (above hi n || below lo n) = true <;> simp [hc]
    · have ho : outside lo hi param e.2 = false := by simp [outside, hn]
      subst hi'
      simp [hn, ih, ho, List.filter_cons]

theorem dropLoop_error (lo hi : Option Int) (param : String) (ig : Bool) (l : List ((ν × ν) × Attrs)) (acc : List (ν × ν))
    (h : ∃ e ∈ l, ¬ Readable param ig e.2) :
    ∃ er, dropLoop lo hi param ig l acc = .error er ∧ ((∀ e ∈ l, ∀ s, e.2.get? param ≠ some (.str s)) → er = .keyError) := by
  induction l generalizing acc with
  | nil => simp at h
  | cons e l ih =>
    unfold dropLoop
    cases hg : e.2.get? param with
    | none =>
      cases ig with
      | false => exact ⟨.keyError, by simp, fun _ => rfl⟩
      | true =>
        have : ∃ e ∈ l, ¬ Readable param true e.2 := by
          obtain ⟨e', he', hr⟩ := h
          rcases List.mem_cons.1 he' with rfl | he'
          · exact absurd (Or.inr ⟨hg, rfl⟩) hr
          · exact ⟨e', he', hr⟩
        obtain ⟨er, h1, h2⟩ := ih acc this
        exact ⟨er, by simpa using h1, fun hs => h2 (fun e he => hs e (by simp [he]))⟩
    | some v =>
      cases v with
      | str s => exact ⟨.typeError, by simp, fun hs => absurd hg (hs e (by simp) s)⟩
      | num n =>
        have : ∃ e ∈ l, ¬ Readable param ig e.2 := by
          obtain ⟨e', he', hr⟩ := h
          rcases List.mem_cons.1 he' with rfl | he'
          · exact absurd (Or.inl ⟨n, hg⟩) hr
          · exact ⟨e', he', hr⟩
        simp only []
        split
        · obtain ⟨er, h1, h2⟩ := ih (acc ++ [e.1]) this
          exact ⟨er, h1, fun hs => h2 (fun e he => hs e (by simp [he]))⟩
        · obtain ⟨er, h1, h2⟩ := ih acc this
          exact ⟨er, h1, fun hs => h2 (fun e he => hs e (by simp [he]))⟩

/-! ## Sums -/

theorem sum_point {κ : Type} [DecidableEq κ] (ks : List κ) (hk : ks.Nodup) (m : κ) (hm : m ∈ ks) (a : Int) (f : κ → Int)
    (hf : f m = 0) : (ks.map (fun k => if k = m then a else f k)).sum = a + (ks.map f).sum := by
  induction ks with
  | nil => simp at hm
  | cons k ks ih =>
    rw [List.nodup_cons] at hk
    simp only [List.map_cons, List.sum_cons]
    by_cases h : k = m
    · subst h
      have : (ks.map (fun j => if j = k then a else f j)) = ks.map f := by
        apply List.map_congr_left
        intro j hj
        have : j ≠ k := by rintro rfl; exact hk.1 hj
        simp [this]
      rw [this, if_pos rfl, hf]; omega
    · have hm' : m ∈ ks := by
        rcases List.mem_cons.1 hm with rfl | h'
        · exact absurd rfl h
        · exact h'
      rw [if_neg h, ih hk.2 hm']; omega

/-- The number `w` gives to an edge, 0 without an edge. -/
def at? (w : Attrs → Int) : Option Attrs → Int
  | none => 0
  | some a => w a

/-- The edges that leave a node, summed edge by edge and end by end. -/
theorem sum_out (d : Bool) (w : Attrs → Int) (n : ν) (ks : List ν) (hk : ks.Nodup) (l : List ((ν × ν) × Attrs))
    (hl : l.Pairwise (fun a b => sameEdge d a.1 b.1 = false)) (he : ∀ e ∈ l, e.1.1 ∈ ks ∧ e.1.2 ∈ ks) :
    ((l.filter (fun e => e.1.1 = n || (!d && decide (e.1.2 = n)))).map (fun e => w e.2)).sum =
      (ks.map (fun m => at? w (getE d l (n, m)))).sum := by
  induction l with
  | nil => simp [getE, at?]
  | cons e l ih =>
    obtain ⟨⟨u, v⟩, b⟩ := e
    rw [List.pairwise_cons] at hl
    have ih := ih hl.2 (fun e h => he e (by simp [h]))
    have hend := he ⟨⟨u, v⟩, b⟩ (by simp)
    have hnone : ∀ m, sameEdge d (u, v) (n, m) = true → getE d l (n, m) = none := by
      intro m hm
      cases hg : getE d l (n, m) with
      | none => rfl
      | some b' =>
        obtain ⟨e', h1, h2, _⟩ := getE_mem hg
        have := hl.1 e' h1
        rw [sameEdge_trans hm (sameEdge_symm h2)] at this
        cases this
    have hcons : ∀ m, getE d (((u, v), b) :: l) (n, m) = if sameEdge d (u, v) (n, m) then some b else getE d l (n, m) := fun _ => rfl
    by_cases hu : u = n
    · have hs : ∀ m, sameEdge d (u, v) (n, m) = decide (m = v) := by
        intro m
        rw [Bool.eq_iff_iff, sameEdge_iff]
        simp only [decide_eq_true_eq, Prod.mk.injEq]
        constructor
        · rintro (⟨_, h⟩ | ⟨_, h1, h2⟩)
          · exact h.symm
          · rw [h2, ← hu, h1]
        · rintro rfl; exact Or.inl ⟨hu, rfl⟩
      have e1 : (ks.map (fun m => at? w (getE d (((u, v), b) :: l) (n, m)))) =
          ks.map (fun m => if m = v then w b else at? w (getE d l (n, m))) := by
        apply List.map_congr_left
        intro m _
        rw [hcons, hs]
        by_cases h : m = v <;> simp [h, at?]
      rw [e1, sum_point ks hk v hend.2, List.filter_cons, ← ih]
      · simp [hu]
      · rw [hnone v (by rw [hs]; simp)]; rfl
    · by_cases hv : d = false ∧ v = n
      · obtain ⟨hd, hv⟩ := hv
        have hs : ∀ m, sameEdge d (u, v) (n, m) = decide (m = u) := by
          intro m
          rw [Bool.eq_iff_iff, sameEdge_iff]
          simp only [decide_eq_true_eq, Prod.mk.injEq]
          constructor
          · rintro (⟨h, _⟩ | ⟨_, h1, h2⟩)
            · exact absurd h hu
            · exact h1.symm
          · rintro rfl; exact Or.inr ⟨hd, rfl, hv⟩
        have e1 : (ks.map (fun m => at? w (getE d (((u, v), b) :: l) (n, m)))) =
            ks.map (fun m => if m = u then w b else at? w (getE d l (n, m))) := by
          apply List.map_congr_left
          intro m _
          rw [hcons, hs]
          by_cases h : m = u <;> simp [h, at?]
        rw [e1, sum_point ks hk u hend.1, List.filter_cons, ← ih]
        · simp [hd, hv]
        · rw [hnone u (by rw [hs]; simp)]; rfl
      · have hs : ∀ m, sameEdge d (u, v) (n, m) = false := by
          intro m
          rw [Bool.eq_false_iff]
          intro h
          rw [sameEdge_iff] at h
          simp only [Prod.mk.injEq] at h
          rcases h with ⟨h, _⟩ | ⟨h0, h1, h2⟩
          · exact hu h
          · exact hv ⟨h0, h2⟩
        have e1 : (ks.map (fun m => at? w (getE d (((u, v), b) :: l) (n, m)))) =
            ks.map (fun m => at? w (getE d l (n, m))) := by
          apply List.map_congr_left
          intro m _
          rw [hcons, hs]; simp
        rw [e1, List.filter_cons, ← ih]
        have : (decide (u = n) || (!d && decide (v = n))) = false := by
          cases d <;> simp_all
        simp [this]

/-- The directed graph with every edge turned around. -/
theorem sum_in (w : Attrs → Int) (n : ν) (ks : List ν) (hk : ks.Nodup) (l : List ((ν × ν) × Attrs))
    (hl : l.Pairwise (fun a b => sameEdge true a.1 b.1 = false)) (he : ∀ e ∈ l, e.1.1 ∈ ks ∧ e.1.2 ∈ ks) :
    ((l.filter (fun e => decide (e.1.2 = n))).map (fun e => w e.2)).sum =
      (ks.map (fun m => at? w (getE true l (m, n)))).sum := by
  have h := sum_out true w n ks hk (l.map (fun e => ((e.1.2, e.1.1), e.2))) ?_ ?_
  · have e1 : ∀ m, getE true (l.map (fun e => ((e.1.2, e.1.1), e.2))) (n, m) = getE true l (m, n) := by
      intro m
      clear hl he h
      induction l with
      | nil => rfl
      | cons e l ih =>
        obtain ⟨⟨u, v⟩, b⟩ := e
        simp only [List.map_cons, getE, ih]
        have : sameEdge true (v, u) (n, m) = sameEdge true (u, v) (m, n) := by
          simp [sameEdge, and_comm]
        rw [this]
    simp only [e1] at h
    rw [← h]
    clear h e1 hl he
    induction l with
    | nil => rfl
    | cons e l ih =>
      simp only [List.map_cons, List.filter_cons]
      by_cases hc : e.1.2 = n
      · simp only [hc]; simpa using ih
      · simp only [hc]; simpa using ih
  · rw [List.pairwise_map]
    refine hl.imp ?_
    intro a b hab
    rw [Bool.eq_false_iff] at hab ⊢
    intro h
    apply hab
    rw [sameEdge_iff] at h ⊢
    simp only [Prod.mk.injEq, Bool.true_eq_false, false_and, or_false] at h ⊢
    exact Prod.ext h.2 h.1
  · intro e he'
    obtain ⟨e', h1, rfl⟩ := List.mem_map.1 he'
    exact ⟨(he e' h1).2, (he e' h1).1⟩

theorem ends_keys {g : G ν} (hg : g.WF) : ∀ e ∈ g.edges, e.1.1 ∈ g.nodes.keys ∧ e.1.2 ∈ g.nodes.keys := by
  intro e he
  have := hg.ends e he
  unfold hasNode node? at this
  rw [Dict.mem_keys_iff, Dict.mem_keys_iff]
  exact this

/-! ## dropNodesByDegree -/

/-- A weight, with 1 for a missing one. -/
def weightOr1 (param : String) (a : Attrs) : Int :=
  match a.get? param with
  | some (.num n) => n
  | some (.str _) => 0
  | none => 1

theorem weightSum_ok (param : String) (inc : Bool) (l : List ((ν × ν) × Attrs)) (acc : Int)
    (h : ∀ e ∈ l, Readable param inc e.2) :
    weightSum param inc l acc = .ok (acc + (l.map (fun e => weightOr1 param e.2)).sum) := by
  induction l generalizing acc with
  | nil => simp [weightSum]
  | cons e l ih =>
    have ih := fun acc => ih acc (fun e he => h e (by simp [he]))
    unfold weightSum
    rcases h e (by simp) with ⟨n, hn⟩ | ⟨hn, hi'⟩
    · have ho : weightOr1 param e.2 = n := by simp [weightOr1, hn]
      simp only [hn, ih, ho, List.map_cons, List.sum_cons]; congr 1; omega
    · have ho : weightOr1 param e.2 = 1 := by simp [weightOr1, hn]
      subst hi'
      simp only [hn, ih, ho, List.map_cons, List.sum_cons, Bool.not_true, Bool.false_eq_true, if_false]; congr 1; omega

theorem weightSum_error (param : String) (inc : Bool) (l : List ((ν × ν) × Attrs)) (acc : Int)
    (h : ∃ e ∈ l, ¬ Readable param inc e.2) :
    ∃ er, weightSum param inc l acc = .error er ∧ ((∀ e ∈ l, ∀ s, e.2.get? param ≠ some (.str s)) → er = .keyError) := by
  induction l generalizing acc with
  | nil => simp at h
  | cons e l ih =>
    unfold weightSum
    cases hg : e.2.get? param with
    | none =>
      cases inc with
      | false => exact ⟨.keyError, by simp, fun _ => rfl⟩
      | true =>
        have : ∃ e ∈ l, ¬ Readable param true e.2 := by
          obtain ⟨e', he', hr⟩ := h
          rcases List.mem_cons.1 he' with rfl | he'
          · exact absurd (Or.inr ⟨hg, rfl⟩) hr
          · exact ⟨e', he', hr⟩
        obtain ⟨er, h1, h2⟩ := ih (acc + 1) this
        exact ⟨er, by simpa using h1, fun hs => h2 (fun e he => hs e (by simp [he]))⟩
    | some v =>
      cases v with
      | str s => exact ⟨.typeError, by simp, fun hs => absurd hg (hs e (by simp) s)⟩
      | num n =>
        have : ∃ e ∈ l, ¬ Readable param inc e.2 := by
          obtain ⟨e', he', hr⟩ := h
          rcases List.mem_cons.1 he' with rfl | he'
          · exact absurd (Or.inl ⟨n, hg⟩) hr
          · exact ⟨e', he', hr⟩
        obtain ⟨er, h1, h2⟩ := ih (acc + n) this
        exact ⟨er, h1, fun hs => h2 (fun e he => hs e (by simp [he]))⟩

/-- The value `dropNodesByDegree` compares. -/
def degreeVal (useWeight : Bool) (param : String) (g : G ν) (n : ν) : Int :=
  ((edgesOf g n).map (fun e => if useWeight then weightOr1 param e.2 else 1)).sum

theorem sum_ones {α : Type} (l : List α) : (l.map (fun _ => (1 : Int))).sum = l.length := by
  induction l with
  | nil => rfl
  | cons x l ih => simp only [List.map_cons, List.sum_cons, ih, List.length_cons]; push_cast; omega

theorem degreeLoop_ok (lo hi : Option Int) (uw : Bool) (param : String) (inc : Bool) (g : G ν) (l acc : List ν)
    (h : uw = true → ∀ n ∈ l, ∀ e ∈ edgesOf g n, Readable param inc e.2) :
    degreeLoop lo hi uw param inc g l acc =
      .ok (acc ++ l.filter (fun n => below lo (degreeVal uw param g n) || above hi (degreeVal uw param g n))) := by
  induction l generalizing acc with
  | nil => simp [degreeLoop]
  | cons n l ih =>
    have ih := fun acc => ih acc (fun hu n hn => h hu n (by simp [hn]))
    have hv : (if uw then weightSum param inc (edgesOf g n) 0 else .ok ((edgesOf g n).length : Int)) =
        (.ok (degreeVal uw param g n) : Except GErr Int) := by
      unfold degreeVal
      cases uw with
      | true => simp [weightSum_ok param inc _ 0 (h rfl n (by simp))]
      | false => simp [sum_ones]
    unfold degreeLoop
    rw [hv]
    simp only [bind, Except.bind, ih, List.filter_cons]
    by_cases hc : (below lo (degreeVal uw param g n) || above hi (degreeVal uw param g n)) = true <;> simp [hc]

theorem degreeLoop_error (lo hi : Option Int) (param : String) (inc : Bool) (g : G ν) (l acc : List ν)
    (h : ∃ n ∈ l, ∃ e ∈ edgesOf g n, ¬ Readable param inc e.2) :
    ∃ er, degreeLoop lo hi true param inc g l acc = .error er ∧
      ((∀ e ∈ g.edges, ∀ s, e.2.get? param ≠ some (.str s)) → er = .keyError) := by
  induction l generalizing acc with
  | nil => simp at h
  | cons n l ih =>
    unfold degreeLoop
    by_cases hn : ∃ e ∈ edgesOf g n, ¬ Readable param inc e.2
    · obtain ⟨er, h1, h2⟩ := weightSum_error param inc (edgesOf g n) 0 hn
      refine ⟨er, by simp [h1, bind, Except.bind], fun hs => h2 (fun e he => hs e (List.mem_of_mem_filter he))⟩
    · have hn' : ∀ e ∈ edgesOf g n, Readable param inc e.2 := by
        intro e he; by_contra hc; exact hn ⟨e, he, hc⟩
      have : ∃ n ∈ l, ∃ e ∈ edgesOf g n, ¬ Readable param inc e.2 := by
        obtain ⟨m, hm, hr⟩ := h
        rcases List.mem_cons.1 hm with rfl | hm
        · exact absurd hr hn
        · exact ⟨m, hm, hr⟩
      simp only [if_true, weightSum_ok param inc _ 0 hn', bind, Except.bind]
      split
      · exact ih _ this
      · exact ih _ this

theorem countLoop_ok (lo hi : Option Int) (param : String) (ig : Bool) (l : List (ν × Attrs)) (acc : List ν)
    (h : ∀ n ∈ l, Readable param ig n.2) :
    countLoop lo hi param ig l acc = .ok (acc ++ (l.filter (fun n => outside lo hi param n.2)).map Prod.fst) := by
  induction l generalizing acc with
  | nil => simp [countLoop]
  | cons e l ih =>
    have ih := fun acc => ih acc (fun e he => h e (by simp [he]))
    unfold countLoop
    rcases h e (by simp) with ⟨n, hn⟩ | ⟨hn, hi'⟩
    · have ho : outside lo hi param e.2 = (above hi n || below lo n) := by simp [outside, hn]
      simp only [hn, ih, ho, List.filter_cons]
      by_cases hc : (above hi n || below lo n) = true
      · have hc' : (below lo n || above hi n) = true := by rw [Bool.or_comm]; exact hc
        simp [hc, hc']
      · have hc' : ¬ (below lo n || above hi n) = true := by rw [Bool.or_comm]; exact hc
        simp [hc, hc']
    · have ho : outside lo hi param e.2 = false := by simp [outside, hn]
      subst hi'
      simp [hn, ih, ho, List.filter_cons]

theorem countLoop_error (lo hi : Option Int) (param : String) (ig : Bool) (l : List (ν × Attrs)) (acc : List ν)
    (h : ∃ e ∈ l, ¬ Readable param ig e.2) :
    ∃ er, countLoop lo hi param ig l acc = .error er ∧ ((∀ e ∈ l, ∀ s, e.2.get? param ≠ some (.str s)) → er = .keyError) := by
  induction l generalizing acc with
  | nil => simp at h
  | cons e l ih =>
    unfold countLoop
    cases hg : e.2.get? param with
    | none =>
      cases ig with
      | false => exact ⟨.keyError, by simp, fun _ => rfl⟩
      | true =>
        have : ∃ e ∈ l, ¬ Readable param true e.2 := by
          obtain ⟨e', he', hr⟩ := h
          rcases List.mem_cons.1 he' with rfl | he'
          · exact absurd (Or.inr ⟨hg, rfl⟩) hr
          · exact ⟨e', he', hr⟩
        obtain ⟨er, h1, h2⟩ := ih acc this
        exact ⟨er, by simpa using h1, fun hs => h2 (fun e he => hs e (by simp [he]))⟩
    | some v =>
      cases v with
      | str s => exact ⟨.typeError, by simp, fun hs => absurd hg (hs e (by simp) s)⟩
      | num n =>
        have : ∃ e ∈ l, ¬ Readable param ig e.2 := by
          obtain ⟨e', he', hr⟩ := h
          rcases List.mem_cons.1 he' with rfl | he'
          · exact absurd (Or.inl ⟨n, hg⟩) hr
          · exact ⟨e', he', hr⟩
        simp only []
        split
        · obtain ⟨er, h1, h2⟩ := ih (acc ++ [e.1]) this
          exact ⟨er, h1, fun hs => h2 (fun e he => hs e (by simp [he]))⟩
        · obtain ⟨er, h1, h2⟩ := ih acc this
          exact ⟨er, h1, fun hs => h2 (fun e he => hs e (by simp [he]))⟩

/-- A node touched by an unreadable edge exists when such an edge exists. -/
theorem edgesOf_source {g : G ν} {e : (ν × ν) × Attrs} (he : e ∈ g.edges) : e ∈ edgesOf g e.1.1 := by
  simp [edgesOf, he]

end Verif.Model.GraphHelpers
