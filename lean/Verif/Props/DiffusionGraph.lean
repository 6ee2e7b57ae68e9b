import Verif.Spec.Diffusion
import Mathlib.Algebra.BigOperators.Group.List.Basic
import Mathlib.Tactic.Ring

/-!
# C46: diffusionGraph
-/
set_option autoImplicit false
set_option linter.unusedSimpArgs false
set_option linter.unusedSectionVars false
namespace Verif.Props.DiffusionGraph
open Verif.Py Verif.Py.Graph Verif.Model.Diffusion Verif.Spec.Diffusion

variable {γ : Type} [DecidableEq γ]

/-! ## Lemmas -/

theorem valuesFor_cases (ty : NodeType) (r : Rec γ) :
    (NotIterable ty r ∧ valuesFor ty r = none) ∨
    (¬ NotIterable ty r ∧ nodesOf ty r = [] ∧ valuesFor ty r = some none) ∨
    (¬ NotIterable ty r ∧ nodesOf ty r ≠ [] ∧ valuesFor ty r = some (some (nodesOf ty r))) := by
  cases ty with
  | raw =>
    have hn : ¬ NotIterable .raw r := by rintro ⟨t, h, _⟩; cases h
    by_cases h : r.fields = []
    · refine Or.inr (Or.inl ⟨hn, by simp [nodesOf, Dict.keys, h], ?_⟩)
      have : truthy r (.record r.id) = false := by simp [truthy, h]
      simp [valuesFor, nodeID, this]
    · refine Or.inr (Or.inr ⟨hn, by simpa [nodesOf, Dict.keys] using h, ?_⟩)
      have : truthy r (.record r.id) = true := by simpa [truthy] using h
      simp [valuesFor, nodeID, this, iterate, nodesOf]
  | tag t =>
    cases hg : r.fields.get? t with
    | none =>
      refine Or.inr (Or.inl ⟨?_, by simp [nodesOf, hg], by simp [valuesFor, nodeID, hg]⟩)
      rintro ⟨t', ht, h⟩
      injection ht with ht; subst ht
      rw [hg] at h; rcases h with ⟨n, _, h⟩ | ⟨c, h⟩ <;> cases h
    | some v =>
      rcases v with (s | n | c) | l
      · have hn : ¬ NotIterable (.tag t) r := by
          rintro ⟨t', ht, h⟩
          injection ht with ht; subst ht
          rw [hg] at h; rcases h with ⟨n, _, h⟩ | ⟨c, h⟩ <;> cases h
        cases s with
        | nil => exact Or.inr (Or.inl ⟨hn, by simp [nodesOf, hg], by simp [valuesFor, nodeID, hg, truthy]⟩)
        | cons a s => exact Or.inr (Or.inr ⟨hn, by simp [nodesOf, hg], by simp [valuesFor, nodeID, hg, truthy, iterate, nodesOf]⟩)
      · by_cases h0 : n = 0
        · subst h0
          refine Or.inr (Or.inl ⟨?_, by simp [nodesOf, hg], by simp [valuesFor, nodeID, hg, truthy]⟩)
          rintro ⟨t', ht, h⟩
          injection ht with ht; subst ht
          rw [hg] at h
          rcases h with ⟨n, hn, h⟩ | ⟨c, h⟩
          · injection h with h; injection h with h; injection h with h; exact hn h.symm
          · cases h
        · exact Or.inl ⟨⟨t, rfl, Or.inl ⟨n, h0, hg⟩⟩, by simp [valuesFor, nodeID, hg, truthy, iterate, h0]⟩
      · exact Or.inl ⟨⟨t, rfl, Or.inr ⟨c, hg⟩⟩, by simp [valuesFor, nodeID, hg, truthy, iterate]⟩
      · have hn : ¬ NotIterable (.tag t) r := by
          rintro ⟨t', ht, h⟩
          injection ht with ht; subst ht
          rw [hg] at h; rcases h with ⟨n, _, h⟩ | ⟨c, h⟩ <;> cases h
        cases l with
        | nil => exact Or.inr (Or.inl ⟨hn, by simp [nodesOf, hg], by simp [valuesFor, nodeID, hg, truthy]⟩)
        | cons a l => exact Or.inr (Or.inr ⟨hn, by simp [nodesOf, hg], by simp [valuesFor, nodeID, hg, truthy, iterate, nodesOf]⟩)

/-- The updates of the loop over the sources. -/
def srcEvents (ty : NodeType) (source : List (Rec γ)) : List (Ev (Atom γ) Side) :=
  source.flatMap (fun r => (nodesOf ty r).map (fun v => .node v .src))

/-- The updates for one value of a target. -/
def citeEvents (d : Dict γ (List (Atom γ))) (cr : List γ) (v : Atom γ) : List (Ev (Atom γ) Side) :=
  cr.flatMap (fun c => ((d.get? c).getD []).map (fun s => .edge s v))

/-- The updates for one target. -/
def recEvents (ty : NodeType) (d : Dict γ (List (Atom γ))) (r : Rec γ) : List (Ev (Atom γ) Side) :=
  (nodesOf ty r).flatMap (fun v => .node v .tgt :: citeEvents d r.cr v)

theorem foldl_src (w : Bool) (vs : List (Atom γ)) (g : G γ) :
    vs.foldl (fun g v => g.setNode v (mark .src (g.node? v))) g = run w mark g (vs.map (fun v => .node v .src)) := by
  induction vs generalizing g with
  | nil => rfl
  | cons v vs ih => rw [List.foldl_cons, List.map_cons, run_cons, ih]; rfl

theorem foldl_edges (w : Bool) (ss : List (Atom γ)) (v : Atom γ) (g : G γ) :
    ss.foldl (fun g s => g.bumpEdge w s v) g = run w mark g (ss.map (fun s => .edge s v)) := by
  induction ss generalizing g with
  | nil => rfl
  | cons s ss ih => rw [List.foldl_cons, List.map_cons, run_cons, ih]; rfl

theorem citeLoop_eq (w : Bool) (d : Dict γ (List (Atom γ))) (cr : List γ) (v : Atom γ) (g : G γ) :
    citeLoop w d cr v g = run w mark g (citeEvents d cr v) := by
  unfold citeLoop citeEvents
  induction cr generalizing g with
  | nil => rfl
  | cons c cr ih =>
    rw [List.foldl_cons, List.flatMap_cons, run_append, ih]
    congr 1
    cases d.get? c with
    | none => rfl
    | some ss => exact foldl_edges w ss v g

theorem recLoop_eq (w : Bool) (d : Dict γ (List (Atom γ))) (cr : List γ) (vs : List (Atom γ)) (g : G γ) :
    vs.foldl (fun g v => citeLoop w d cr v (g.setNode v (mark .tgt (g.node? v)))) g = run w mark g (vs.flatMap (fun v => .node v .tgt :: citeEvents d cr v)) := by
  induction vs generalizing g with
  | nil => rfl
  | cons v vs ih =>
    rw [List.foldl_cons, List.flatMap_cons, run_append, run_cons, ih, citeLoop_eq]; rfl

/-- The dictionary of the loop over the sources. -/
def dictOf (ty : NodeType) (source : List (Rec γ)) (d : Dict γ (List (Atom γ))) : Dict γ (List (Atom γ)) :=
  source.foldl (fun d r => if nodesOf ty r = [] then d else d.set r.cite (nodesOf ty r)) d

theorem sourceLoop_eq (w : Bool) (ty : NodeType) (source : List (Rec γ)) (h : ∀ r ∈ source, ¬ NotIterable ty r) (d : Dict γ (List (Atom γ))) (g : G γ) :
    sourceLoop ty source d g = some (dictOf ty source d, run w mark g (srcEvents ty source)) := by
  induction source generalizing d g with
  | nil => rfl
  | cons r rest ih =>
    have ih := ih (fun x hx => h x (by simp [hx]))
    rcases valuesFor_cases ty r with ⟨hn, _⟩ | ⟨_, hn, hv⟩ | ⟨_, hn, hv⟩
    · exact absurd hn (h r (by simp))
    · rw [sourceLoop, hv]
      simp only
      rw [ih]
      simp [dictOf, srcEvents, hn]
    · rw [sourceLoop, hv]
      simp only
      rw [ih, foldl_src w]
      simp only [dictOf, srcEvents, List.foldl_cons, if_neg hn, List.flatMap_cons, run_append]

theorem sourceLoop_none (ty : NodeType) (source : List (Rec γ)) (h : ∃ r ∈ source, NotIterable ty r) (d : Dict γ (List (Atom γ))) (g : G γ) :
    sourceLoop ty source d g = none := by
  induction source generalizing d g with
  | nil => obtain ⟨r, hr, _⟩ := h; cases hr
  | cons r rest ih =>
    rw [sourceLoop]
    by_cases hr : NotIterable ty r
    · rcases valuesFor_cases ty r with ⟨_, hv⟩ | ⟨hn, _⟩ | ⟨hn, _⟩
      · rw [hv]
      · exact absurd hr hn
      · exact absurd hr hn
    · have ih := ih (by
        obtain ⟨x, hx, hx'⟩ := h
        rcases List.mem_cons.1 hx with rfl | hx
        · exact absurd hx' hr
        · exact ⟨x, hx, hx'⟩)
      split
      · rfl
      · exact ih _ _
      · exact ih _ _

theorem targetLoop_eq (w : Bool) (ty : NodeType) (d : Dict γ (List (Atom γ))) (target : List (Rec γ)) (h : ∀ r ∈ target, ¬ NotIterable ty r) (g : G γ) :
    targetLoop w ty d target g = some (run w mark g (target.flatMap (recEvents ty d))) := by
  induction target generalizing g with
  | nil => rfl
  | cons r rest ih =>
    have ih := ih (fun x hx => h x (by simp [hx]))
    rcases valuesFor_cases ty r with ⟨hn, _⟩ | ⟨_, hn, hv⟩ | ⟨_, hn, hv⟩
    · exact absurd hn (h r (by simp))
    · rw [targetLoop, hv]
      simp only
      rw [ih]
      simp [recEvents, hn]
    · rw [targetLoop, hv]
      simp only
      rw [ih, recLoop_eq]
      simp only [recEvents, List.flatMap_cons, run_append]

theorem targetLoop_none (w : Bool) (ty : NodeType) (d : Dict γ (List (Atom γ))) (target : List (Rec γ)) (h : ∃ r ∈ target, NotIterable ty r) (g : G γ) :
    targetLoop w ty d target g = none := by
  induction target generalizing g with
  | nil => obtain ⟨r, hr, _⟩ := h; cases hr
  | cons r rest ih =>
    rw [targetLoop]
    by_cases hr : NotIterable ty r
    · rcases valuesFor_cases ty r with ⟨_, hv⟩ | ⟨hn, _⟩ | ⟨hn, _⟩
      · rw [hv]
      · exact absurd hr hn
      · exact absurd hr hn
    · have ih := ih (by
        obtain ⟨x, hx, hx'⟩ := h
        rcases List.mem_cons.1 hx with rfl | hx
        · exact absurd hx' hr
        · exact ⟨x, hx, hx'⟩)
      split
      · rfl
      · exact ih _
      · exact ih _

theorem get?_dictOf (ty : NodeType) (source : List (Rec γ)) (c : γ) : ((dictOf ty source []).get? c).getD [] = nodesFor ty source c := by
  have : ∀ d : Dict γ (List (Atom γ)), Dict.get? (dictOf ty source d) c =
      (source.reverse.findSome? (fun r => if r.cite = c ∧ nodesOf ty r ≠ [] then some (nodesOf ty r) else none)).or (d.get? c) := by
    induction source with
    | nil => intro d; simp [dictOf]
    | cons r rest ih =>
      intro d
      unfold dictOf
      rw [List.foldl_cons, ← dictOf, ih, List.reverse_cons, List.findSome?_append]
      simp only [List.findSome?_cons, List.findSome?_nil]
      by_cases hn : nodesOf ty r = []
      · simp [hn]
      · rw [if_neg hn, Dict.get?_set]
        by_cases hc : r.cite = c
        · simp [hn, hc]
        · simp [hn, hc]
  rw [this]
  unfold nodesFor
  simp

/-- All the updates of a call. -/
def events (st tt : NodeType) (source target : List (Rec γ)) : List (Ev (Atom γ) Side) :=
  srcEvents st source ++ target.flatMap (recEvents tt (dictOf st source []))

theorem graph_eq (w : Bool) (st tt : NodeType) (source target : List (Rec γ)) (hs : ∀ r ∈ source, ¬ NotIterable st r) (ht : ∀ r ∈ target, ¬ NotIterable tt r) :
    diffusionGraph w st tt source target = some (run w mark (Graph.empty true) (events st tt source target)) := by
  unfold diffusionGraph
  rw [sourceLoop_eq w st source hs]
  simp only
  rw [targetLoop_eq w tt _ target ht, events, run_append]

theorem countP_edge (s t : Atom γ) (l : List (Atom γ)) (v : Atom γ) :
    (l.map (fun u => (Ev.edge u v : Ev (Atom γ) Side))).countP (Ev.isEdge true s t) = if v = t then l.count s else 0 := by
  induction l with
  | nil => simp
  | cons a l ih =>
    rw [List.map_cons, List.countP_cons, ih, List.count_cons]
    have : Ev.isEdge (τ := Side) true s t (Ev.edge a v) = decide (a = s ∧ v = t) := by
      rw [Bool.eq_iff_iff]
      simp [Ev.isEdge, sameEdge_iff]
    rw [this]
    by_cases h1 : a = s <;> by_cases h2 : v = t <;> simp [h1, h2]

theorem countP_citeEvents (d : Dict γ (List (Atom γ))) (cr : List γ) (v s t : Atom γ) :
    (citeEvents d cr v).countP (Ev.isEdge true s t) = if v = t then (cr.map (fun c => ((d.get? c).getD []).count s)).sum else 0 := by
  unfold citeEvents
  induction cr with
  | nil => simp
  | cons c cr ih =>
    rw [List.flatMap_cons, List.countP_append, ih, countP_edge]
    by_cases h : v = t <;> simp [h]

theorem countP_recEvents (ty : NodeType) (d : Dict γ (List (Atom γ))) (r : Rec γ) (s t : Atom γ) :
    (recEvents ty d r).countP (Ev.isEdge true s t) = (nodesOf ty r).count t * (r.cr.map (fun c => ((d.get? c).getD []).count s)).sum := by
  unfold recEvents
  induction nodesOf ty r with
  | nil => simp
  | cons v vs ih =>
    rw [List.flatMap_cons, List.countP_append, ih, List.countP_cons, countP_citeEvents, List.count_cons]
    by_cases h : v = t
    · simp [h, Ev.isEdge]; ring
    · simp [h, Ev.isEdge]

theorem countP_events (st tt : NodeType) (source target : List (Rec γ)) (s t : Atom γ) :
    (events st tt source target).countP (Ev.isEdge true s t) = joins st tt source target s t := by
  have h1 : (srcEvents st source).countP (Ev.isEdge true s t) = 0 := by
    rw [List.countP_eq_zero]
    intro e he
    unfold srcEvents at he
    simp only [List.mem_flatMap, List.mem_map] at he
    obtain ⟨_, _, _, _, rfl⟩ := he
    simp [Ev.isEdge]
  unfold events joins
  rw [List.countP_append, h1, Nat.zero_add]
  induction target with
  | nil => rfl
  | cons r rest ih =>
    rw [List.flatMap_cons, List.countP_append, ih, countP_recEvents, List.map_cons, List.sum_cons]
    simp only [get?_dictOf]

/-! ### Nodes -/

theorem onNode_some_edges (m : Atom γ) (f : Flags) (es : List (Ev (Atom γ) Side)) (h : ∀ e ∈ es, ∃ u v, e = .edge u v) :
    es.foldl (Ev.onNode mark m) (some f) = some f := by
  induction es with
  | nil => rfl
  | cons e es ih =>
    obtain ⟨u, v, rfl⟩ := h e (by simp)
    rw [List.foldl_cons]
    have : Ev.onNode mark m (some f) (Ev.edge u v : Ev (Atom γ) Side) = some f := by simp [Ev.onNode]
    rw [this]
    exact ih (fun x hx => h x (by simp [hx]))

theorem citeEvents_edges (d : Dict γ (List (Atom γ))) (cr : List γ) (v : Atom γ) : ∀ e ∈ citeEvents d cr v, ∃ c ∈ cr, ∃ s ∈ (d.get? c).getD [], e = .edge s v := by
  intro e he
  unfold citeEvents at he
  simp only [List.mem_flatMap, List.mem_map] at he
  obtain ⟨c, hc, s, hs, rfl⟩ := he
  exact ⟨c, hc, s, hs, rfl⟩

theorem onNode_none_edges (m : Atom γ) (es : List (Ev (Atom γ) Side)) (h : ∀ e ∈ es, ∃ u v, e = .edge u v ∧ u ≠ m ∧ v ≠ m) :
    es.foldl (Ev.onNode mark m) none = none := by
  induction es with
  | nil => rfl
  | cons e es ih =>
    obtain ⟨u, v, rfl, h1, h2⟩ := h e (by simp)
    rw [List.foldl_cons]
    have : Ev.onNode mark m none (Ev.edge u v : Ev (Atom γ) Side) = none := by simp [Ev.onNode, h1, h2]
    rw [this]
    exact ih (fun x hx => h x (by simp [hx]))

/-- The attributes of `m` after the values `vs` of a target. -/
theorem onNode_vals (d : Dict γ (List (Atom γ))) (cr : List γ) (vs : List (Atom γ)) (m : Atom γ) (o : Option Flags)
    (h : o = none → ∀ c, m ∉ (d.get? c).getD []) :
    (vs.flatMap (fun v => Ev.node v Side.tgt :: citeEvents d cr v)).foldl (Ev.onNode mark m) o = if m ∈ vs then some (mark .tgt o) else o := by
  induction vs generalizing o with
  | nil => simp
  | cons v vs ih =>
    rw [List.flatMap_cons, List.foldl_append, List.foldl_cons]
    by_cases hv : v = m
    · subst hv
      have e1 : Ev.onNode mark v o (Ev.node v Side.tgt : Ev (Atom γ) Side) = some (mark .tgt o) := by simp [Ev.onNode]
      rw [e1, onNode_some_edges _ _ _ (fun e he => by obtain ⟨_, _, s, _, rfl⟩ := citeEvents_edges d cr v e he; exact ⟨s, v, rfl⟩), ih _ (by intro h; cases h)]
      have : mark .tgt (some (mark .tgt o)) = mark .tgt o := by cases o <;> rfl
      rw [this]; simp
    · have e1 : Ev.onNode mark m o (Ev.node v Side.tgt : Ev (Atom γ) Side) = o := by simp [Ev.onNode, hv]
      rw [e1]
      have e2 : (citeEvents d cr v).foldl (Ev.onNode mark m) o = o := by
        cases ho : o with
        | none =>
          exact onNode_none_edges _ _ (fun e he => by
            obtain ⟨c, _, s, hs, rfl⟩ := citeEvents_edges d cr v e he
            exact ⟨s, v, rfl, fun hc => h ho c (hc ▸ hs), hv⟩)
        | some f => exact onNode_some_edges _ _ _ (fun e he => by obtain ⟨_, _, s, _, rfl⟩ := citeEvents_edges d cr v e he; exact ⟨s, v, rfl⟩)
      rw [e2, ih o h]
      simp [Ne.symm hv]

theorem onNode_targets (ty : NodeType) (d : Dict γ (List (Atom γ))) (target : List (Rec γ)) (m : Atom γ) (o : Option Flags)
    (h : o = none → ∀ c, m ∉ (d.get? c).getD []) :
    (target.flatMap (recEvents ty d)).foldl (Ev.onNode mark m) o = if (∃ r ∈ target, m ∈ nodesOf ty r) then some (mark .tgt o) else o := by
  classical
  induction target generalizing o with
  | nil => simp
  | cons r rest ih =>
    rw [List.flatMap_cons, List.foldl_append, recEvents, onNode_vals d r.cr _ m o h]
    by_cases hm : m ∈ nodesOf ty r
    · rw [if_pos hm, ih _ (by intro h; cases h)]
      have : mark .tgt (some (mark .tgt o)) = mark .tgt o := by cases o <;> rfl
      rw [this, if_pos (⟨r, by simp, hm⟩ : ∃ x ∈ r :: rest, m ∈ nodesOf ty x)]
      split <;> rfl
    · rw [if_neg hm, ih o h]
      have : (∃ x ∈ r :: rest, m ∈ nodesOf ty x) ↔ ∃ x ∈ rest, m ∈ nodesOf ty x := by simp [hm]
      simp only [this]

theorem onNode_sources (ty : NodeType) (source : List (Rec γ)) (m : Atom γ) (o : Option Flags) (ho : o = none ∨ o = some ⟨true, false⟩) :
    (srcEvents ty source).foldl (Ev.onNode mark m) o = if (∃ r ∈ source, m ∈ nodesOf ty r) then some ⟨true, false⟩ else o := by
  classical
  have hvs : ∀ (vs : List (Atom γ)) (o : Option Flags), (o = none ∨ o = some ⟨true, false⟩) →
      (vs.map (fun v => (Ev.node v Side.src : Ev (Atom γ) Side))).foldl (Ev.onNode mark m) o = if m ∈ vs then some ⟨true, false⟩ else o := by
    intro vs
    induction vs with
    | nil => intro o _; simp
    | cons v vs ih =>
      intro o ho
      rw [List.map_cons, List.foldl_cons]
      by_cases hv : v = m
      · have : Ev.onNode mark m o (Ev.node v Side.src : Ev (Atom γ) Side) = some ⟨true, false⟩ := by
          rcases ho with rfl | rfl <;> simp [Ev.onNode, hv, mark]
        rw [this, ih _ (Or.inr rfl)]
        simp [hv]
      · have : Ev.onNode mark m o (Ev.node v Side.src : Ev (Atom γ) Side) = o := by simp [Ev.onNode, hv]
        rw [this, ih _ ho]
        simp [Ne.symm hv]
  unfold srcEvents
  induction source generalizing o with
  | nil => simp
  | cons r rest ih =>
    rw [List.flatMap_cons, List.foldl_append, hvs _ _ ho]
    by_cases hm : m ∈ nodesOf ty r
    · rw [if_pos hm, ih _ (Or.inr rfl), if_pos (⟨r, by simp, hm⟩ : ∃ x ∈ r :: rest, m ∈ nodesOf ty x)]
      simp
    · rw [if_neg hm, ih _ ho]
      have : (∃ x ∈ r :: rest, m ∈ nodesOf ty x) ↔ ∃ x ∈ rest, m ∈ nodesOf ty x := by simp [hm]
      simp only [this]

theorem mem_nodesFor {ty : NodeType} {source : List (Rec γ)} {c : γ} {s : Atom γ} (h : s ∈ nodesFor ty source c) :
    ∃ r ∈ source, r.cite = c ∧ s ∈ nodesOf ty r := by
  unfold nodesFor at h
  cases hf : source.reverse.findSome? (fun r => if r.cite = c ∧ nodesOf ty r ≠ [] then some (nodesOf ty r) else none) with
  | none => rw [hf] at h; simp at h
  | some l =>
    rw [hf] at h
    obtain ⟨r, hr, hl⟩ := List.exists_of_findSome?_eq_some hf
    split at hl
    · rename_i hc
      injection hl with hl
      subst hl
      exact ⟨r, List.mem_reverse.1 hr, hc.1, h⟩
    · cases hl

/-! ## C46 -/

/-- **C46**. `diffusionGraph` raises `TypeError` exactly when the field of some source or target is a number or a single citation. -/
theorem C46_error (w : Bool) (st tt : NodeType) (source target : List (Rec γ)) :
    diffusionGraph w st tt source target = none ↔ (∃ r ∈ source, NotIterable st r) ∨ ∃ r ∈ target, NotIterable tt r := by
  constructor
  · intro h
    by_contra hc
    push Not at hc
    rw [graph_eq w st tt source target hc.1 hc.2] at h
    cases h
  · rintro (h | h)
    · unfold diffusionGraph; rw [sourceLoop_none st source h]
    · unfold diffusionGraph
      by_cases hs : ∃ r ∈ source, NotIterable st r
      · rw [sourceLoop_none st source hs]
      · push Not at hs
        rw [sourceLoop_eq w st source hs]
        exact targetLoop_none w tt _ target h _

/-- **C46** for the nodes a record stands for (`nodesOf`). A directed edge goes from `s` to `t` exactly when a target with `t` cites the citation of a source with `s`, and its weight is the number of times
that happens. The English property speaks of records as nodes; that the nodes are never records is `C46_raw_nodes`. Of several sources with the same citation only the last counts. -/
theorem C46_edges_partial (w : Bool) (st tt : NodeType) (source target : List (Rec γ)) (g : G γ) (hg : diffusionGraph w st tt source target = some g) (s t : Atom γ) :
    g.directed = true ∧ g.WF ∧
    g.edge? s t = (if joins st tt source target s t = 0 then none else some (if w then some (joins st tt source target s t) else none)) := by
  have hn : ¬ (diffusionGraph w st tt source target = none) := by rw [hg]; simp
  rw [C46_error] at hn
  push Not at hn
  rw [graph_eq w st tt source target hn.1 hn.2] at hg
  injection hg with hg
  obtain ⟨h1, h2, h3, h4⟩ := run_spec w true mark (events st tt source target)
  rw [hg] at h1 h2 h3
  refine ⟨h2, h1, ?_⟩
  rw [h3, countP_events]; rfl

/-- **C46** for the nodes a record stands for: two nodes are joined exactly when a target with the one cites the source with the other. -/
theorem C46_joined_partial (w : Bool) (st tt : NodeType) (source target : List (Rec γ)) (g : G γ) (hg : diffusionGraph w st tt source target = some g) (s t : Atom γ) :
    g.hasEdge s t = true ↔ ∃ r ∈ target, t ∈ nodesOf tt r ∧ ∃ c ∈ r.cr, s ∈ nodesFor st source c := by
  obtain ⟨_, _, he⟩ := C46_edges_partial w st tt source target g hg s t
  unfold hasEdge
  rw [he]
  have hz : ∀ l : List Nat, l.sum ≠ 0 ↔ ∃ x ∈ l, x ≠ 0 := by
    intro l
    induction l with
    | nil => simp
    | cons a l ih => rw [List.sum_cons]; simp only [List.mem_cons, exists_eq_or_imp, ← ih]; omega
  have : joins st tt source target s t ≠ 0 ↔ ∃ r ∈ target, t ∈ nodesOf tt r ∧ ∃ c ∈ r.cr, s ∈ nodesFor st source c := by
    unfold joins
    rw [hz]
    simp only [List.mem_map, exists_exists_and_eq_and, ne_eq, Nat.mul_eq_zero, not_or, List.count_eq_zero, not_not]
    have h2 : ∀ r : Rec γ, ¬ (List.map (fun c => (nodesFor st source c).count s) r.cr).sum = 0 ↔ ∃ c ∈ r.cr, s ∈ nodesFor st source c := by
      intro r
      rw [← ne_eq, hz]
      simp only [List.mem_map, exists_exists_and_eq_and, ne_eq]
      exact exists_congr (fun a => and_congr_right (fun _ => by rw [List.count_eq_zero, not_not]))
    simp only [h2]
  rw [← this]
  by_cases h0 : joins st tt source target s t = 0 <;> simp [h0]

open Classical in
/-- **C46**, the nodes: those of the sources and those of the targets, each marked with where it comes from. -/
theorem C46_nodes (w : Bool) (st tt : NodeType) (source target : List (Rec γ)) (g : G γ) (hg : diffusionGraph w st tt source target = some g) (m : Atom γ) :
    g.node? m = if (∃ r ∈ source, m ∈ nodesOf st r) ∨ (∃ r ∈ target, m ∈ nodesOf tt r) then
      some ⟨decide (∃ r ∈ source, m ∈ nodesOf st r), decide (∃ r ∈ target, m ∈ nodesOf tt r)⟩ else none := by
  have hn : ¬ (diffusionGraph w st tt source target = none) := by rw [hg]; simp
  rw [C46_error] at hn
  push Not at hn
  rw [graph_eq w st tt source target hn.1 hn.2] at hg
  injection hg with hg
  obtain ⟨h1, h2, h3, h4⟩ := run_spec w true mark (events st tt source target)
  rw [hg] at h4
  rw [h4, events, List.foldl_append, onNode_sources st source m none (Or.inl rfl)]
  by_cases hs : ∃ r ∈ source, m ∈ nodesOf st r
  · rw [if_pos hs, onNode_targets tt _ target m _ (by intro h; cases h)]
    by_cases ht : ∃ r ∈ target, m ∈ nodesOf tt r
    · rw [if_pos ht, if_pos (Or.inl hs)]; simp [hs, ht, mark]
    · rw [if_neg ht, if_pos (Or.inl hs)]; simp [hs, ht]
  · rw [if_neg hs, onNode_targets tt _ target m _ (by
      intro _ c hc
      rw [get?_dictOf] at hc
      obtain ⟨r, hr, _, hm⟩ := mem_nodesFor hc
      exact hs ⟨r, hr, hm⟩)]
    by_cases ht : ∃ r ∈ target, m ∈ nodesOf tt r
    · rw [if_pos ht, if_pos (Or.inr ht)]; simp [hs, ht, mark]
    · rw [if_neg ht, if_neg]
      rintro (h | h)
      · exact hs h
      · exact ht h

/-! ## Labels -/

/-- The matches of one target with labels, in order: source value, target value and label. -/
def triples (tt : NodeType) (labels : List Str) (d : Dict γ (List (Atom γ))) (r : Rec γ) : List (Atom γ × Atom γ × Str) :=
  (nodesOf tt r).flatMap (fun v => r.cr.flatMap (fun c => ((d.get? c).getD []).flatMap (fun u => labels.map (fun l => (u, v, l)))))

theorem labelsOf_eq (sh : Atom γ → Str) (labelTag : Str) (r : Rec γ) :
    labelsOf sh labelTag r = if (r.fields.get? labelTag).isSome then some (labels sh labelTag r) else none := by
  unfold labelsOf labels
  cases r.fields.get? labelTag with
  | none => rfl
  | some v =>
    cases v with
    | atom a => cases a <;> rfl
    | list l =>
      simp only [Option.isSome_some, if_true]
      congr 1

theorem labels_getD (sh : Atom γ → Str) (labelTag : Str) (r : Rec γ) : (labelsOf sh labelTag r).getD [] = labels sh labelTag r := by
  rw [labelsOf_eq]
  cases h : r.fields.get? labelTag with
  | none => simp [labels, h]
  | some v => simp

/-- The matches of all targets. -/
def allTriples (sh : Atom γ → Str) (tt : NodeType) (labelTag : Str) (d : Dict γ (List (Atom γ))) (target : List (Rec γ)) : List (Atom γ × Atom γ × Str) :=
  target.flatMap (fun r => triples tt (labels sh labelTag r) d r)

/-- Adding one match. -/
def addTriple (w : Bool) (es : List (MEdge γ)) (x : Atom γ × Atom γ × Str) : List (MEdge γ) := labelStep w x.1 x.2.1 es x.2.2

theorem foldl_triples (w : Bool) (d : Dict γ (List (Atom γ))) (cr : List γ) (labels : List Str) (vs : List (Atom γ)) (es : List (MEdge γ)) :
    vs.foldl (fun es v => cr.foldl (labelCite w d labels v) es) es =
      (vs.flatMap (fun v => cr.flatMap (fun c => ((d.get? c).getD []).flatMap (fun u => labels.map (fun l => (u, v, l)))))).foldl (addTriple w) es := by
  have hu : ∀ (v : Atom γ) (ss : List (Atom γ)) (es : List (MEdge γ)), ss.foldl (fun es u => labels.foldl (labelStep w u v) es) es =
      (ss.flatMap (fun u => labels.map (fun l => (u, v, l)))).foldl (addTriple w) es := by
    intro v ss
    induction ss with
    | nil => intro es; rfl
    | cons u ss ih =>
      intro es
      rw [List.foldl_cons, ih, List.flatMap_cons, List.foldl_append, List.foldl_map]
      rfl
  have hc : ∀ (v : Atom γ) (cr : List γ) (es : List (MEdge γ)), cr.foldl (labelCite w d labels v) es =
      (cr.flatMap (fun c => ((d.get? c).getD []).flatMap (fun u => labels.map (fun l => (u, v, l))))).foldl (addTriple w) es := by
    intro v cr
    induction cr with
    | nil => intro es; rfl
    | cons c cr ih =>
      intro es
      rw [List.foldl_cons, ih, List.flatMap_cons, List.foldl_append]
      congr 1
      unfold labelCite
      cases d.get? c with
      | none => rfl
      | some ss => exact hu v ss es
  induction vs generalizing es with
  | nil => rfl
  | cons v vs ih => rw [List.foldl_cons, ih, List.flatMap_cons, List.foldl_append, hc]

/-- The nodes after the targets. -/
def addNodes (tt : NodeType) (target : List (Rec γ)) (n : Dict (Atom γ) Flags) : Dict (Atom γ) Flags :=
  (target.flatMap (nodesOf tt)).foldl (fun n v => n.set v (mark .tgt (n.get? v))) n

theorem foldl_pair (w : Bool) (d : Dict γ (List (Atom γ))) (cr : List γ) (labels : List Str) (vs : List (Atom γ)) (g : MGraph γ) :
    vs.foldl (fun (g : MGraph γ) v => ⟨g.nodes.set v (mark .tgt (g.nodes.get? v)), cr.foldl (labelCite w d labels v) g.edges⟩) g =
      ⟨vs.foldl (fun n v => n.set v (mark .tgt (n.get? v))) g.nodes, vs.foldl (fun es v => cr.foldl (labelCite w d labels v) es) g.edges⟩ := by
  induction vs generalizing g with
  | nil => rfl
  | cons v vs ih => rw [List.foldl_cons, ih]; rfl

theorem labelled_eq (sh : Atom γ → Str) (w : Bool) (tt : NodeType) (labelTag : Str) (d : Dict γ (List (Atom γ))) (target : List (Rec γ))
    (h : ∀ r ∈ labelled labelTag target, ¬ NotIterable tt r) (g : MGraph γ) :
    labelledLoop sh w tt labelTag d target g =
      some ⟨addNodes tt (labelled labelTag target) g.nodes, (allTriples sh tt labelTag d target).foldl (addTriple w) g.edges⟩ := by
  induction target generalizing g with
  | nil => rfl
  | cons r rest ih =>
    have ih := ih (fun x hx => h x (by
      unfold labelled at hx ⊢
      rw [List.mem_filter] at hx ⊢
      exact ⟨by simp [hx.1], hx.2⟩))
    unfold allTriples at ih ⊢
    rw [labelledLoop, List.flatMap_cons, List.foldl_append, labelsOf_eq]
    by_cases hl : (r.fields.get? labelTag).isSome = true
    · rw [if_pos hl]
      have hlab : labelled labelTag (r :: rest) = r :: labelled labelTag rest := by unfold labelled; rw [List.filter_cons, if_pos hl]
      rw [hlab] at h ⊢
      simp only
      rcases valuesFor_cases tt r with ⟨hn, _⟩ | ⟨_, hn, hv⟩ | ⟨_, hn, hv⟩
      · exact absurd hn (h r (by simp))
      · rw [hv]
        simp only
        rw [ih]
        have : triples tt (labels sh labelTag r) d r = [] := by
          unfold triples; simp [hn]
        rw [this]
        simp [addNodes, hn]
      · rw [hv]
        simp only
        rw [ih, foldl_pair, foldl_triples]
        simp only [addNodes, List.flatMap_cons, List.foldl_append]
        rfl
    · rw [if_neg hl]
      have hlab : labelled labelTag (r :: rest) = labelled labelTag rest := by unfold labelled; rw [List.filter_cons, if_neg hl]
      rw [hlab]
      simp only
      rw [ih]
      have h0 : labels sh labelTag r = [] := by
        cases hg : r.fields.get? labelTag with
        | none => unfold labels; rw [hg]
        | some v => rw [hg] at hl; simp at hl
      have : triples tt (labels sh labelTag r) d r = [] := by
        unfold triples; simp [h0]
      rw [this]; rfl

theorem labelled_none (sh : Atom γ → Str) (w : Bool) (tt : NodeType) (labelTag : Str) (d : Dict γ (List (Atom γ))) (target : List (Rec γ))
    (h : ∃ r ∈ labelled labelTag target, NotIterable tt r) (g : MGraph γ) : labelledLoop sh w tt labelTag d target g = none := by
  induction target generalizing g with
  | nil => obtain ⟨r, hr, _⟩ := h; simp [labelled] at hr
  | cons r rest ih =>
    rw [labelledLoop, labelsOf_eq]
    by_cases hl : (r.fields.get? labelTag).isSome = true
    · rw [if_pos hl]
      have hlab : labelled labelTag (r :: rest) = r :: labelled labelTag rest := by unfold labelled; rw [List.filter_cons, if_pos hl]
      rw [hlab] at h
      simp only
      rcases valuesFor_cases tt r with ⟨_, hv⟩ | ⟨hn, _, hv⟩ | ⟨hn, _, hv⟩ <;> rw [hv] <;> simp only
      all_goals
        apply ih
        obtain ⟨x, hx, hxn⟩ := h
        rcases List.mem_cons.1 hx with rfl | hx
        · exact absurd hxn hn
        · exact ⟨x, hx, hxn⟩
    · rw [if_neg hl]
      have hlab : labelled labelTag (r :: rest) = labelled labelTag rest := by unfold labelled; rw [List.filter_cons, if_neg hl]
      rw [hlab] at h
      exact ih h g

theorem get?_addNodes (tt : NodeType) (target : List (Rec γ)) (n : Dict (Atom γ) Flags) (m : Atom γ) :
    (addNodes tt target n).get? m = if (∃ r ∈ target, m ∈ nodesOf tt r) then some (mark .tgt (n.get? m)) else n.get? m := by
  classical
  have hvs : ∀ (vs : List (Atom γ)) (n : Dict (Atom γ) Flags), (vs.foldl (fun n v => n.set v (mark .tgt (n.get? v))) n).get? m =
      if m ∈ vs then some (mark .tgt (n.get? m)) else n.get? m := by
    intro vs
    induction vs with
    | nil => intro n; simp
    | cons v vs ih =>
      intro n
      rw [List.foldl_cons, ih, Dict.get?_set]
      by_cases hv : v = m
      · subst hv
        have : mark .tgt (some (mark .tgt (n.get? v))) = mark .tgt (n.get? v) := by cases n.get? v <;> rfl
        simp [this]
      · rw [if_neg hv]
        simp [Ne.symm hv]
  unfold addNodes
  rw [hvs]
  simp only [List.mem_flatMap]

theorem sources_node (st : NodeType) (source : List (Rec γ)) (m : Atom γ) :
    (run true mark (Graph.empty true : G γ) (srcEvents st source)).node? m = if (∃ r ∈ source, m ∈ nodesOf st r) then some ⟨true, false⟩ else none := by
  rw [(run_spec true true mark (srcEvents st source)).2.2.2, onNode_sources st source m none (Or.inl rfl)]

theorem labelledGraph_eq (sh : Atom γ → Str) (w : Bool) (st tt : NodeType) (labelTag : Str) (source target : List (Rec γ))
    (hs : ∀ r ∈ source, ¬ NotIterable st r) (ht : ∀ r ∈ labelled labelTag target, ¬ NotIterable tt r) :
    labelledGraph sh w st tt labelTag source target =
      some ⟨addNodes tt (labelled labelTag target) (run true mark (Graph.empty true : G γ) (srcEvents st source)).nodes,
        (allTriples sh tt labelTag (dictOf st source []) target).foldl (addTriple w) []⟩ := by
  unfold labelledGraph
  rw [sourceLoop_eq true st source hs]
  exact labelled_eq sh w tt labelTag _ target ht _

theorem weighted_inv (ts : List (Atom γ × Atom γ × Str)) (es : List (MEdge γ)) (h : ∀ e ∈ es, ∃ n l, e.key = .inl n ∧ e.attr = some (l, 1)) :
    (∀ e ∈ ts.foldl (addTriple true) es, ∃ n l, e.key = .inl n ∧ e.attr = some (l, 1)) ∧
    ∀ s t l, (ts.foldl (addTriple true) es).countP (fun e => e.src = s ∧ e.dst = t ∧ e.attr = some (l, 1)) =
      es.countP (fun e => e.src = s ∧ e.dst = t ∧ e.attr = some (l, 1)) + ts.count (s, t, l) := by
  induction ts generalizing es with
  | nil => exact ⟨h, fun s t l => by simp⟩
  | cons x ts ih =>
    obtain ⟨u, v, lab⟩ := x
    have hk : hasKey es u v lab = false := by
      unfold hasKey
      rw [List.any_eq_false]
      intro e he
      obtain ⟨n, l, hn, _⟩ := h e he
      simp [hn]
    have e1 : addTriple true es (u, v, lab) = es ++ [⟨u, v, .inl (parallel es u v), some (lab, 1)⟩] := by
      unfold addTriple labelStep; simp [hk]
    rw [List.foldl_cons, e1]
    obtain ⟨i1, i2⟩ := ih (es ++ [⟨u, v, .inl (parallel es u v), some (lab, 1)⟩]) (by
      intro e he
      rcases List.mem_append.1 he with he | he
      · exact h e he
      · simp only [List.mem_cons, List.not_mem_nil, or_false] at he
        subst he
        exact ⟨_, _, rfl, rfl⟩)
    refine ⟨i1, fun s t l => ?_⟩
    rw [i2, List.countP_append, List.count_cons]
    by_cases e : (u, v, lab) = (s, t, l)
    · simp only [Prod.mk.injEq] at e
      obtain ⟨rfl, rfl, rfl⟩ := e
      simp only [List.countP_cons, List.countP_nil, and_self, decide_true, if_true, beq_self_eq_true]
      omega
    · have : ((u, v, lab) == (s, t, l)) = false := by simpa using e
      simp only [Prod.mk.injEq] at e
      rw [this]
      simp only [List.countP_cons, List.countP_nil, Option.some.injEq, Prod.mk.injEq, and_true]
      simp [e]

/-- The edges from one node to another are numbered 0, 1, … . -/
theorem weighted_keys (ts : List (Atom γ × Atom γ × Str)) (es : List (MEdge γ)) (h : ∀ e ∈ es, ∃ n l, e.key = .inl n ∧ e.attr = some (l, 1))
    (hk : ∀ s t, (es.filter (fun e => decide (e.src = s ∧ e.dst = t))).map MEdge.key =
      (List.range (es.filter (fun e => decide (e.src = s ∧ e.dst = t))).length).map .inl) (s t : Atom γ) :
    ((ts.foldl (addTriple true) es).filter (fun e => decide (e.src = s ∧ e.dst = t))).map MEdge.key =
      (List.range ((ts.foldl (addTriple true) es).filter (fun e => decide (e.src = s ∧ e.dst = t))).length).map .inl := by
  induction ts generalizing es with
  | nil => exact hk s t
  | cons x ts ih =>
    obtain ⟨u, v, lab⟩ := x
    have hk' : hasKey es u v lab = false := by
      unfold hasKey
      rw [List.any_eq_false]
      intro e he
      obtain ⟨n, l, hn, _⟩ := h e he
      simp [hn]
    have e1 : addTriple true es (u, v, lab) = es ++ [⟨u, v, .inl (parallel es u v), some (lab, 1)⟩] := by
      unfold addTriple labelStep; simp [hk']
    rw [List.foldl_cons, e1]
    apply ih
    · intro e he
      rcases List.mem_append.1 he with he | he
      · exact h e he
      · simp only [List.mem_cons, List.not_mem_nil, or_false] at he
        subst he
        exact ⟨_, _, rfl, rfl⟩
    · intro s t
      rw [List.filter_append, List.map_append, hk s t, List.length_append]
      by_cases e : u = s ∧ v = t
      · obtain ⟨rfl, rfl⟩ := e
        have hp : parallel es u v = (es.filter (fun e => decide (e.src = u ∧ e.dst = v))).length := by
          unfold parallel; rw [List.countP_eq_length_filter]
        rw [List.filter_cons_of_pos (by simp), List.filter_nil, hp]
        simp [List.range_succ]
      · rw [List.filter_cons_of_neg (by simpa using e), List.filter_nil]
        simp

theorem unweighted_inv (ts : List (Atom γ × Atom γ × Str)) (es : List (MEdge γ)) (h : ∀ e ∈ es, ∃ l, e.key = .inr l ∧ e.attr = none)
    (h1 : ∀ s t l, es.countP (fun e => e.src = s ∧ e.dst = t ∧ e.key = .inr l) ≤ 1) :
    (∀ e ∈ ts.foldl (addTriple false) es, ∃ l, e.key = .inr l ∧ e.attr = none) ∧
    ∀ s t l, (ts.foldl (addTriple false) es).countP (fun e => e.src = s ∧ e.dst = t ∧ e.key = .inr l) =
      if hasKey es s t l = true ∨ (s, t, l) ∈ ts then 1 else 0 := by
  have hcount : ∀ (es : List (MEdge γ)) s t l, hasKey es s t l = true ↔ 0 < es.countP (fun e => e.src = s ∧ e.dst = t ∧ e.key = .inr l) := by
    intro es s t l
    unfold hasKey
    rw [List.countP_pos_iff, List.any_eq_true]
  induction ts generalizing es with
  | nil =>
    refine ⟨h, fun s t l => ?_⟩
    simp only [List.foldl_nil, List.not_mem_nil, or_false]
    have := hcount es s t l
    have := h1 s t l
    by_cases hk : hasKey es s t l = true
    · rw [if_pos hk]; have := (hcount es s t l).1 hk; omega
    · rw [if_neg hk]
      have : ¬ 0 < es.countP (fun e => e.src = s ∧ e.dst = t ∧ e.key = .inr l) := fun hc => hk ((hcount es s t l).2 hc)
      omega
  | cons x ts ih =>
    obtain ⟨u, v, lab⟩ := x
    rw [List.foldl_cons]
    by_cases hk : hasKey es u v lab = true
    · have e1 : addTriple false es (u, v, lab) = es := by unfold addTriple labelStep; simp [hk]
      rw [e1]
      obtain ⟨i1, i2⟩ := ih es h h1
      refine ⟨i1, fun s t l => ?_⟩
      rw [i2]
      congr 1
      rw [eq_iff_iff]
      constructor
      · rintro (h | h)
        · exact Or.inl h
        · exact Or.inr (by simp [h])
      · rintro (h | h)
        · exact Or.inl h
        · rcases List.mem_cons.1 h with h | h
          · simp only [Prod.mk.injEq] at h
            obtain ⟨rfl, rfl, rfl⟩ := h
            exact Or.inl hk
          · exact Or.inr h
    · have e1 : addTriple false es (u, v, lab) = es ++ [⟨u, v, .inr lab, none⟩] := by unfold addTriple labelStep; simp [hk]
      rw [e1]
      have hz : es.countP (fun e => e.src = u ∧ e.dst = v ∧ e.key = .inr lab) = 0 := by
        have : ¬ 0 < es.countP (fun e => e.src = u ∧ e.dst = v ∧ e.key = .inr lab) := fun hc => hk ((hcount es u v lab).2 hc)
        omega
      have hnew : ∀ s t l, hasKey (es ++ [⟨u, v, .inr lab, none⟩]) s t l = true ↔ hasKey es s t l = true ∨ (s, t, l) = (u, v, lab) := by
        intro s t l
        unfold hasKey
        rw [List.any_append, Bool.or_eq_true]
        simp only [List.any_cons, List.any_nil, Bool.or_false, decide_eq_true_eq, Prod.mk.injEq, Sum.inr.injEq]
        constructor
        · rintro (h | ⟨a, b, c⟩)
          · exact Or.inl h
          · exact Or.inr ⟨a.symm, b.symm, c.symm⟩
        · rintro (h | ⟨a, b, c⟩)
          · exact Or.inl h
          · exact Or.inr ⟨a.symm, b.symm, c.symm⟩
      obtain ⟨i1, i2⟩ := ih (es ++ [⟨u, v, .inr lab, none⟩]) (by
        intro e he
        rcases List.mem_append.1 he with he | he
        · exact h e he
        · simp only [List.mem_cons, List.not_mem_nil, or_false] at he
          subst he
          exact ⟨_, rfl, rfl⟩) (by
        intro s t l
        rw [List.countP_append]
        by_cases e : (u, v, lab) = (s, t, l)
        · simp only [Prod.mk.injEq] at e
          obtain ⟨rfl, rfl, rfl⟩ := e
          rw [hz]; simp
        · simp only [Prod.mk.injEq] at e
          have := h1 s t l
          simp only [List.countP_cons, List.countP_nil, Sum.inr.injEq]
          simp only [e, decide_false, Bool.false_eq_true, if_false]
          omega)
      refine ⟨i1, fun s t l => ?_⟩
      rw [i2]
      congr 1
      rw [eq_iff_iff, hnew, List.mem_cons]
      tauto

theorem count_triples (tt : NodeType) (labels : List Str) (d : Dict γ (List (Atom γ))) (r : Rec γ) (s t : Atom γ) (l : Str) :
    (triples tt labels d r).count (s, t, l) = labels.count l * ((nodesOf tt r).count t * (r.cr.map (fun c => ((d.get? c).getD []).count s)).sum) := by
  have h1 : ∀ u v, (labels.map (fun x => (u, v, x))).count (s, t, l) = if u = s ∧ v = t then labels.count l else 0 := by
    intro u v
    by_cases h : u = s ∧ v = t
    · obtain ⟨rfl, rfl⟩ := h
      rw [if_pos ⟨rfl, rfl⟩]
      induction labels with
      | nil => rfl
      | cons a ls ih =>
        rw [List.map_cons, List.count_cons, List.count_cons, ih]
        by_cases e : a = l <;> simp [e]
    · rw [if_neg h, List.count_eq_zero]
      intro hm
      obtain ⟨x, _, hx⟩ := List.mem_map.1 hm
      simp only [Prod.mk.injEq] at hx
      exact h ⟨hx.1, hx.2.1⟩
  have h2 : ∀ (us : List (Atom γ)) v, (us.flatMap (fun u => labels.map (fun x => (u, v, x)))).count (s, t, l) = if v = t then labels.count l * us.count s else 0 := by
    intro us v
    induction us with
    | nil => simp
    | cons u us ih =>
      rw [List.flatMap_cons, List.count_append, ih, h1, List.count_cons]
      by_cases e1 : u = s <;> by_cases e2 : v = t <;> simp [e1, e2] <;> ring
  have h3 : ∀ (cr : List γ) v, (cr.flatMap (fun c => ((d.get? c).getD []).flatMap (fun u => labels.map (fun x => (u, v, x))))).count (s, t, l) =
      if v = t then labels.count l * (cr.map (fun c => ((d.get? c).getD []).count s)).sum else 0 := by
    intro cr v
    induction cr with
    | nil => simp
    | cons c cr ih =>
      rw [List.flatMap_cons, List.count_append, ih, h2]
      by_cases e2 : v = t <;> simp [e2] <;> ring
  unfold triples
  induction nodesOf tt r with
  | nil => simp
  | cons v vs ih =>
    rw [List.flatMap_cons, List.count_append, ih, h3, List.count_cons]
    by_cases e2 : v = t <;> simp [e2] <;> ring

theorem count_allTriples (sh : Atom γ → Str) (st tt : NodeType) (labelTag : Str) (source target : List (Rec γ)) (s t : Atom γ) (l : Str) :
    (allTriples sh tt labelTag (dictOf st source []) target).count (s, t, l) = labelJoins sh st tt labelTag source target s t l := by
  unfold allTriples labelJoins
  induction target with
  | nil => rfl
  | cons r rest ih =>
    rw [List.flatMap_cons, List.count_append, ih, count_triples, List.map_cons, List.sum_cons]
    simp only [get?_dictOf]

/-- **C46**, `labelEdgesBy`: a `TypeError` is raised exactly when the field of a source, or of a target that has a label, is a number or a single citation. -/
theorem C46_labels_error (sh : Atom γ → Str) (w : Bool) (st tt : NodeType) (labelTag : Str) (source target : List (Rec γ)) :
    labelledGraph sh w st tt labelTag source target = none ↔
      (∃ r ∈ source, NotIterable st r) ∨ ∃ r ∈ labelled labelTag target, NotIterable tt r := by
  constructor
  · intro h
    by_contra hc
    push Not at hc
    rw [labelledGraph_eq sh w st tt labelTag source target hc.1 hc.2] at h
    cases h
  · rintro (h | h)
    · unfold labelledGraph; rw [sourceLoop_none st source h]
    · unfold labelledGraph
      cases sourceLoop st source [] (Graph.empty true) with
      | none => rfl
      | some p => exact labelled_none sh w tt labelTag _ target h _

/-- **C46**, `labelEdgesBy`: the nodes are those of the sources and of the targets that have a label, marked as such. -/
theorem C46_labels_nodes (sh : Atom γ → Str) (w : Bool) (st tt : NodeType) (labelTag : Str) (source target : List (Rec γ)) (g : MGraph γ)
    (hg : labelledGraph sh w st tt labelTag source target = some g) (m : Atom γ) :
    g.nodes.get? m = if (∃ r ∈ source, m ∈ nodesOf st r) ∨ (∃ r ∈ labelled labelTag target, m ∈ nodesOf tt r) then
      some ⟨decide (∃ r ∈ source, m ∈ nodesOf st r), decide (∃ r ∈ labelled labelTag target, m ∈ nodesOf tt r)⟩ else none := by
  have hn : ¬ (labelledGraph sh w st tt labelTag source target = none) := by rw [hg]; simp
  rw [C46_labels_error] at hn
  push Not at hn
  rw [labelledGraph_eq sh w st tt labelTag source target hn.1 hn.2] at hg
  injection hg with hg
  subst hg
  dsimp only
  rw [get?_addNodes]
  have e : (run true mark (Graph.empty true : G γ) (srcEvents st source)).nodes.get? m = _ := sources_node st source m
  rw [e]
  by_cases hs : ∃ r ∈ source, m ∈ nodesOf st r <;> by_cases ht : ∃ r ∈ labelled labelTag target, m ∈ nodesOf tt r
  · rw [if_pos ht, if_pos hs, if_pos (Or.inl hs), decide_eq_true hs, decide_eq_true ht]; rfl
  · rw [if_neg ht, if_pos hs, if_pos (Or.inl hs), decide_eq_true hs, decide_eq_false ht]
  · rw [if_pos ht, if_neg hs, if_pos (Or.inr ht), decide_eq_false hs, decide_eq_true ht]; rfl
  · rw [if_neg ht, if_neg hs, if_neg (not_or.2 ⟨hs, ht⟩)]

/-- **C46**, `labelEdgesBy` with weights: the code means to raise the weight of a labelled edge, but never finds it, so there is one edge of weight 1 with the label for each time a target with `t` and
the label cites a source with `s`. The edges from `s` to `t` have the keys 0, 1, … . -/
theorem C46_labels_weighted (sh : Atom γ → Str) (st tt : NodeType) (labelTag : Str) (source target : List (Rec γ)) (g : MGraph γ)
    (hg : labelledGraph sh true st tt labelTag source target = some g) :
    (∀ e ∈ g.edges, ∃ n l, e.key = .inl n ∧ e.attr = some (l, 1)) ∧
    (∀ s t l, g.edges.countP (fun e => e.src = s ∧ e.dst = t ∧ e.attr = some (l, 1)) = labelJoins sh st tt labelTag source target s t l) ∧
    ∀ s t, (g.edges.filter (fun e => decide (e.src = s ∧ e.dst = t))).map MEdge.key =
      (List.range (g.edges.filter (fun e => decide (e.src = s ∧ e.dst = t))).length).map .inl := by
  have hn : ¬ (labelledGraph sh true st tt labelTag source target = none) := by rw [hg]; simp
  rw [C46_labels_error] at hn
  push Not at hn
  rw [labelledGraph_eq sh true st tt labelTag source target hn.1 hn.2] at hg
  injection hg with hg
  subst hg
  refine ⟨(weighted_inv _ [] (by simp)).1, fun s t l => ?_, weighted_keys _ [] (by simp) (by simp)⟩
  rw [(weighted_inv _ [] (by simp)).2, count_allTriples]; simp

/-- **C46**, `labelEdgesBy` without weights: there is one edge with the label as key exactly when a target with `t` and the label cites a source with `s`. -/
theorem C46_labels_unweighted (sh : Atom γ → Str) (st tt : NodeType) (labelTag : Str) (source target : List (Rec γ)) (g : MGraph γ)
    (hg : labelledGraph sh false st tt labelTag source target = some g) :
    (∀ e ∈ g.edges, ∃ l, e.key = .inr l ∧ e.attr = none) ∧
    ∀ s t l, g.edges.countP (fun e => e.src = s ∧ e.dst = t ∧ e.key = .inr l) = if labelJoins sh st tt labelTag source target s t l = 0 then 0 else 1 := by
  have hn : ¬ (labelledGraph sh false st tt labelTag source target = none) := by rw [hg]; simp
  rw [C46_labels_error] at hn
  push Not at hn
  rw [labelledGraph_eq sh false st tt labelTag source target hn.1 hn.2] at hg
  injection hg with hg
  subst hg
  refine ⟨(unweighted_inv _ [] (by simp) (by simp)).1, fun s t l => ?_⟩
  rw [(unweighted_inv _ [] (by simp) (by simp)).2, ← count_allTriples]
  have h0 : hasKey ([] : List (MEdge γ)) s t l = false := rfl
  by_cases hm : (s, t, l) ∈ allTriples sh tt labelTag (dictOf st source []) target
  · have : List.count (s, t, l) (allTriples sh tt labelTag (dictOf st source []) target) ≠ 0 := by
      rw [ne_eq, List.count_eq_zero]; simpa using hm
    rw [if_pos (Or.inr hm), if_neg this]
  · rw [if_neg (by simp [h0, hm]), if_pos (List.count_eq_zero.2 hm)]

/-! ## Where the code disagrees -/

/-- With the default `'raw'` for both collections the nodes are the tags of the records, not the records: the graph joins tags. -/
theorem C46_raw_nodes (w : Bool) (source target : List (Rec γ)) :
    ∃ g, diffusionGraph w .raw .raw source target = some g ∧ ∀ m, g.hasNode m = true ↔ ∃ r ∈ source ++ target, ∃ tag ∈ r.fields.keys, m = .str tag := by
  classical
  cases hg : diffusionGraph w .raw .raw source target with
  | none =>
    rw [C46_error] at hg
    rcases hg with ⟨r, _, t, h, _⟩ | ⟨r, _, t, h, _⟩ <;> cases h
  | some g =>
    refine ⟨g, rfl, fun m => ?_⟩
    unfold hasNode
    rw [C46_nodes w .raw .raw source target g hg m]
    have hx : ∀ r : Rec γ, m ∈ nodesOf .raw r ↔ ∃ tag ∈ r.fields.keys, m = .str tag := by
      intro r
      unfold nodesOf
      simp only [List.mem_map]
      constructor
      · rintro ⟨t, ht, rfl⟩; exact ⟨t, ht, rfl⟩
      · rintro ⟨t, ht, rfl⟩; exact ⟨t, ht, rfl⟩
    simp only [hx]
    constructor
    · intro h
      split at h
      · rename_i hc
        rcases hc with ⟨r, hr, h⟩ | ⟨r, hr, h⟩
        · exact ⟨r, by simp [hr], h⟩
        · exact ⟨r, by simp [hr], h⟩
      · cases h
    · rintro ⟨r, hr, h⟩
      rw [if_pos]
      · rfl
      · rcases List.mem_append.1 hr with hr | hr
        · exact Or.inl ⟨r, hr, h⟩
        · exact Or.inr ⟨r, hr, h⟩

/-- A paper cited by a target: the graph has no node for either, and its edge is from tag `TI` to tag `PY` and so on. -/
theorem C46_raw_witness :
    let a : Rec Nat := ⟨"a".toList, [("TI".toList, .atom (.str "A".toList))], 1, [1], []⟩
    let t : Rec Nat := ⟨"t".toList, [("PY".toList, .atom (.num 2000))], 2, [2], [1]⟩
    diffusionGraph true .raw .raw [a] [t] =
      some ⟨true, [(.str "TI".toList, ⟨true, false⟩), (.str "PY".toList, ⟨false, true⟩)], [((.str "TI".toList, .str "PY".toList), some 1)]⟩ := by decide +kernel

/-- With a tag that holds a string the nodes are its characters. -/
theorem C46_string_witness :
    let a : Rec Nat := ⟨"a".toList, [("UT".toList, .atom (.str "W1".toList))], 1, [1], []⟩
    let t : Rec Nat := ⟨"t".toList, [("UT".toList, .atom (.str "W2".toList))], 2, [2], [1]⟩
    (diffusionGraph true (.tag "UT".toList) (.tag "UT".toList) [a] [t]).map (fun g => g.nodes.keys) =
      some [.str "W".toList, .str "1".toList, .str "2".toList] := by decide +kernel

/-! ## The hypotheses can be met -/

/-- Sources and a target with lists of subjects. -/
def exS : List (Rec Nat) := [⟨"a".toList, [("WC".toList, .list [.str "X".toList, .str "Y".toList])], 1, [1], []⟩, ⟨"b".toList, [("WC".toList, .list [.str "Y".toList])], 3, [3], []⟩]
def exT : List (Rec Nat) := [⟨"t".toList, [("WC".toList, .list [.str "Z".toList, .str "Y".toList])], 7, [7], [1, 3, 8]⟩]

example : diffusionGraph true (.tag "WC".toList) (.tag "WC".toList) exS exT =
    some ⟨true, [(.str "X".toList, ⟨true, false⟩), (.str "Y".toList, ⟨true, true⟩), (.str "Z".toList, ⟨false, true⟩)],
      [((.str "X".toList, .str "Z".toList), some 1), ((.str "Y".toList, .str "Z".toList), some 2), ((.str "X".toList, .str "Y".toList), some 1),
        ((.str "Y".toList, .str "Y".toList), some 2)]⟩ := by decide +kernel
example : joins (.tag "WC".toList) (.tag "WC".toList) exS exT (.str "Y".toList) (.str "Z".toList) = 2 := by decide +kernel

/-- Two matches with the same label give two edges of weight 1, not one of weight 2; a target without label adds nothing. -/
example : labelledGraph (fun _ => []) true (.tag "WC".toList) (.tag "WC".toList) "PY".toList exS
    [⟨"t".toList, [("WC".toList, .list [.str "Z".toList]), ("PY".toList, .atom (.str "2000".toList))], 7, [7], [1, 3]⟩,
      ⟨"u".toList, [("WC".toList, .list [.str "V".toList])], 8, [8], [1]⟩] =
    some ⟨[(.str "X".toList, ⟨true, false⟩), (.str "Y".toList, ⟨true, false⟩), (.str "Z".toList, ⟨false, true⟩)],
      [⟨.str "X".toList, .str "Z".toList, .inl 0, some ("2000".toList, 1)⟩, ⟨.str "Y".toList, .str "Z".toList, .inl 0, some ("2000".toList, 1)⟩,
      ⟨.str "Y".toList, .str "Z".toList, .inl 1, some ("2000".toList, 1)⟩]⟩ := by decide +kernel

end Verif.Props.DiffusionGraph
