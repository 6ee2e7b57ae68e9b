import Verif.Props.GraphDrops

/-! # C41: degrees and degree distributions -/
set_option autoImplicit false
set_option linter.unusedSectionVars false
set_option linter.unusedSimpArgs false
namespace Verif.Props
open Verif.Py Verif.Py.Graph Verif.Model.GraphHelpers Verif.Spec

variable {ν : Type} [DecidableEq ν]

/-- The value of an edge whose value can be computed. -/
def valOf (ws : Option String) (conv : Val → Option Int) (a : Attrs) : Int :=
  match ws with
  | none => 1
  | some w => match a.get? w with
    | none => 1
    | some v => (conv v).getD 0

/-- The value of an edge can be computed: there is no weight name, or the edge has a weight that converts, or it has none and that is
allowed. -/
def ValOk (ws : Option String) (strict : Bool) (conv : Val → Option Int) (a : Attrs) : Prop :=
  ∀ w, ws = some w → (∃ v n, a.get? w = some v ∧ conv v = some n) ∨ (a.get? w = none ∧ strict = false)

theorem edgeVal_ok (ws : Option String) (strict : Bool) (conv : Val → Option Int) (a : Attrs) (h : ValOk ws strict conv a) :
    edgeVal ws strict conv a = .ok (valOf ws conv a) := by
  unfold edgeVal valOf
  cases ws with
  | none => rfl
  | some w =>
    rcases h w rfl with ⟨v, n, h1, h2⟩ | ⟨h1, h2⟩
    · simp [h1, h2]
    · simp [h1, h2]

theorem edgeVal_error (ws : Option String) (strict : Bool) (conv : Val → Option Int) (a : Attrs) (h : ¬ ValOk ws strict conv a) :
    ∃ er, edgeVal ws strict conv a = .error er := by
  unfold ValOk at h
  push Not at h
  obtain ⟨w, rfl, h1, h2⟩ := h
  unfold edgeVal
  cases hg : a.get? w with
  | none => have := h2 hg; simp at this; exact ⟨.keyError, by simp [this, hg]⟩
  | some v =>
    cases hc : conv v with
    | none => exact ⟨.valueError, by simp [hc, hg]⟩
    | some n => exact absurd hc (h1 v n hg)

/-- What one edge adds to the degree of `n`. -/
def contrib (et : EdgeType) (e : ν × ν) (v : Int) (n : ν) : Int :=
  match et with
  | .bi => (if e.1 = n then v else 0) + (if e.2 = n then v else 0)
  | .in => if e.2 = n then v else 0
  | .out => if e.1 = n then v else 0
  | .other => 0

theorem keys_bump (d : Dict ν Int) (n : ν) (v : Int) (h : n ∈ d.keys) : (bump d n v).keys = d.keys := by
  unfold bump; rw [Dict.keys_set, if_pos h]

theorem get?_bump (d : Dict ν Int) (n m : ν) (v : Int) (h : n ∈ d.keys) :
    (bump d n v).get? m = (d.get? m).map (fun x => x + if n = m then v else 0) := by
  unfold bump
  rw [Dict.get?_set]
  by_cases hm : n = m
  · subst hm
    rw [Dict.mem_keys_iff] at h
    obtain ⟨x, hx⟩ := Option.isSome_iff_exists.1 h
    simp [hx]
  · simp [hm]

theorem degree_fold (ws : Option String) (strict : Bool) (conv : Val → Option Int) (et : EdgeType) (het : et ≠ .other)
    (l : List ((ν × ν) × Attrs)) (d : Dict ν Int) (hk : ∀ e ∈ l, e.1.1 ∈ d.keys ∧ e.1.2 ∈ d.keys)
    (hv : ∀ e ∈ l, ValOk ws strict conv e.2) :
    ∃ d', l.foldlM (degreeStep ws strict conv et) d = .ok d' ∧ d'.keys = d.keys ∧
      ∀ n, d'.get? n = (d.get? n).map (fun x => x + (l.map (fun e => contrib et e.1 (valOf ws conv e.2) n)).sum) := by
  induction l generalizing d with
  | nil => exact ⟨d, rfl, rfl, fun n => by cases d.get? n <;> simp⟩
  | cons e l ih =>
    have hk0 := hk e (by simp)
    have hstep : ∃ d1, degreeStep ws strict conv et d e = .ok d1 ∧ d1.keys = d.keys ∧
        ∀ n, d1.get? n = (d.get? n).map (fun x => x + contrib et e.1 (valOf ws conv e.2) n) := by
      unfold degreeStep
      rw [edgeVal_ok ws strict conv e.2 (hv e (by simp))]
      cases et with
      | other => exact absurd rfl het
      | bi =>
        refine ⟨_, rfl, ?_, ?_⟩
        · rw [keys_bump, keys_bump _ _ _ hk0.1]; rw [keys_bump _ _ _ hk0.1]; exact hk0.2
        · intro n
          rw [get?_bump, get?_bump _ _ _ _ hk0.1]
          · cases d.get? n <;> simp [contrib]; omega
          · rw [keys_bump _ _ _ hk0.1]; exact hk0.2
      | «in» => exact ⟨_, rfl, keys_bump _ _ _ hk0.2, fun n => by rw [get?_bump _ _ _ _ hk0.2]; rfl⟩
      | out => exact ⟨_, rfl, keys_bump _ _ _ hk0.1, fun n => by rw [get?_bump _ _ _ _ hk0.1]; rfl⟩
    obtain ⟨d1, h1, h2, h3⟩ := hstep
    obtain ⟨d', i1, i2, i3⟩ := ih d1 (fun e he => by rw [h2]; exact hk e (by simp [he])) (fun e he => hv e (by simp [he]))
    refine ⟨d', by simp only [List.foldlM_cons, h1, bind, Except.bind]; exact i1, i2.trans h2, ?_⟩
    intro n
    rw [i3, h3]
    cases d.get? n <;> simp; omega

theorem get?_zero (l : List (ν × Attrs)) (n : ν) :
    Dict.get? (l.map (fun n => (n.1, (0 : Int)))) n = (Dict.get? l n).map (fun _ => 0) := by
  induction l with
  | nil => rfl
  | cons x l ih =>
    simp only [List.map_cons, Dict.get?, ih]
    split <;> simp

theorem keys_zero (l : List (ν × Attrs)) : Dict.keys (l.map (fun n => (n.1, (0 : Int)))) = Dict.keys l := by
  simp [Dict.keys]

/-- **C41.** `getNodeDegrees` returns exactly when the graph has no edge, or the kind of degree is known and the value of every edge can be
computed. -/
theorem C41_returns (ws : Option String) (strict : Bool) (conv : Val → Option Int) (et : EdgeType) (g : G ν) (hg : g.WF) :
    (∃ d, getNodeDegrees ws strict conv et g = .ok d) ↔
      (∀ u v, g.edge? u v = none) ∨ (et ≠ .other ∧ ∀ u v a, g.edge? u v = some a → ValOk ws strict conv a) := by
  unfold getNodeDegrees
  have hempty : (∀ u v, g.edge? u v = none) ↔ g.edges = [] := by
    constructor
    · intro h
      cases he : g.edges with
      | nil => rfl
      | cons e l =>
        have := edge?_of_mem hg (e := e) (by rw [he]; simp)
        rw [h] at this; cases this
    · intro h u v; unfold edge?; rw [h]; rfl
  rw [hempty]
  have hall : (∀ u v a, g.edge? u v = some a → ValOk ws strict conv a) ↔ ∀ e ∈ g.edges, ValOk ws strict conv e.2 := by
    constructor
    · intro h e he; exact h _ _ _ (edge?_of_mem hg he)
    · intro h u v a h1
      obtain ⟨e, he', _, rfl⟩ := (edge?_eq_some_iff hg _ _ _).1 h1
      exact h e he'
  rw [hall]
  constructor
  · rintro ⟨d, hd⟩
    by_cases he : g.edges = []
    · exact Or.inl he
    · right
      have key : ∀ (l : List ((ν × ν) × Attrs)) (d d' : Dict ν Int), l.foldlM (degreeStep ws strict conv et) d = .ok d' →
          ∀ e ∈ l, et ≠ .other ∧ ValOk ws strict conv e.2 := by
        intro l
        induction l with
        | nil => intro _ _ _ e he; simp at he
        | cons x l ih =>
          intro d d' h e he
          simp only [List.foldlM_cons, bind, Except.bind] at h
          split at h
          · cases h
          · rename_i d1 h1
            rcases List.mem_cons.1 he with rfl | he
            · unfold degreeStep at h1
              by_cases hv : ValOk ws strict conv e.2
              · refine ⟨?_, hv⟩
                rintro rfl
                rw [edgeVal_ok ws strict conv e.2 hv] at h1
                simp [bind, Except.bind] at h1
              · obtain ⟨er, h2⟩ := edgeVal_error ws strict conv e.2 hv
                rw [h2] at h1; simp [bind, Except.bind] at h1
            · exact ih _ _ h e he
      have k := key _ _ _ hd
      refine ⟨?_, fun e he => (k e he).2⟩
      obtain ⟨e, he'⟩ := List.exists_mem_of_ne_nil _ he
      exact (k e he').1
  · rintro (h | ⟨h1, h2⟩)
    · rw [h]; exact ⟨_, rfl⟩
    · obtain ⟨d, h, _⟩ := degree_fold ws strict conv et h1 g.edges (g.nodes.map (fun n => (n.1, 0)))
        (by rw [keys_zero]; exact ends_keys hg) h2
      exact ⟨d, h⟩

/-- When `getNodeDegrees` returns: the edges it could evaluate, and its result edge by edge. -/
theorem degrees_sum {ws : Option String} {strict : Bool} {conv : Val → Option Int} {et : EdgeType} {g : G ν} (hg : g.WF)
    {d : Dict ν Int} (hd : getNodeDegrees ws strict conv et g = .ok d) :
    d.keys = g.nodes.keys ∧ ∀ n, g.hasNode n = true →
      d.get? n = some (g.edges.map (fun e => contrib et e.1 (valOf ws conv e.2) n)).sum := by
  rcases (C41_returns ws strict conv et g hg).1 ⟨d, hd⟩ with h | ⟨h1, h2⟩
  · have he : g.edges = [] := by
      cases he : g.edges with
      | nil => rfl
      | cons e l =>
        have := edge?_of_mem hg (e := e) (by rw [he]; simp)
        rw [h] at this; cases this
    unfold getNodeDegrees at hd
    rw [he] at hd ⊢
    simp only [List.foldlM_nil, pure, Except.pure, Except.ok.injEq] at hd
    subst hd
    refine ⟨keys_zero _, ?_⟩
    intro n hn
    rw [get?_zero]
    unfold hasNode node? at hn
    obtain ⟨x, hx⟩ := Option.isSome_iff_exists.1 hn
    simp [hx]
  · obtain ⟨d', k1, k2, k3⟩ := degree_fold ws strict conv et h1 g.edges (g.nodes.map (fun n => (n.1, 0)))
      (by rw [keys_zero]; exact ends_keys hg) (fun e he => h2 _ _ _ (edge?_of_mem hg he))
    unfold getNodeDegrees at hd
    rw [k1] at hd
    cases hd
    refine ⟨by rw [k2, keys_zero], ?_⟩
    intro n hn
    rw [k3, get?_zero]
    unfold hasNode node? at hn
    obtain ⟨x, hx⟩ := Option.isSome_iff_exists.1 hn
    simp [hx]

theorem sum_filter_if {α : Type} (l : List α) (p : α → Bool) (f : α → Int) :
    ((l.filter p).map f).sum = (l.map (fun x => if p x then f x else 0)).sum := by
  induction l with
  | nil => rfl
  | cons x l ih =>
    simp only [List.filter_cons, List.map_cons, List.sum_cons, ← ih]
    by_cases h : p x = true <;> simp [h]

theorem sum_add {α : Type} (l : List α) (f g : α → Int) : (l.map (fun x => f x + g x)).sum = (l.map f).sum + (l.map g).sum := by
  induction l with
  | nil => rfl
  | cons x l ih => simp only [List.map_cons, List.sum_cons, ih]; omega

theorem inDegree_eq {g : G ν} (hg : g.WF) (hd : g.directed = true) (w : Attrs → Int) (n : ν) :
    ((g.edges.filter (fun e => decide (e.1.2 = n))).map (fun e => w e.2)).sum = inDegree w g n := by
  have h := hg.edges
  rw [hd] at h
  rw [sum_in w n g.nodes.keys hg.nodes g.edges h (ends_keys hg)]
  unfold inDegree edge?
  rw [hd]
  rfl

theorem loop_eq {g : G ν} (hg : g.WF) (w : Attrs → Int) (n : ν) :
    (g.edges.map (fun e => if e.1.1 = n ∧ e.1.2 = n then w e.2 else 0)).sum = edgeVal? w g n n := by
  unfold edgeVal? edge?
  have h := hg.edges
  generalize g.directed = dd at h
  generalize g.edges = l at h
  induction l with
  | nil => rfl
  | cons e l ih =>
    obtain ⟨⟨u, v⟩, b⟩ := e
    rw [List.pairwise_cons] at h
    simp only [List.map_cons, List.sum_cons, ih h.2, getE]
    by_cases hc : u = n ∧ v = n
    · obtain ⟨rfl, rfl⟩ := hc
      have : getE dd l (v, v) = none := by
        cases hg' : getE dd l (v, v) with
        | none => rfl
        | some b' =>
          obtain ⟨e', h1, h2, _⟩ := getE_mem hg'
          have := h.1 e' h1
          simp only [] at this
          rw [sameEdge_symm h2] at this; cases this
      simp [sameEdge_refl, this]
    · have : sameEdge dd (u, v) (n, n) = false := by
        rw [Bool.eq_false_iff]; intro hs; rw [sameEdge_iff] at hs
        apply hc
        rcases hs with hs | ⟨_, h1, h2⟩
        · simpa using hs
        · exact ⟨h1, h2⟩
      simp [hc, this]

/-- **C41.** The dictionary has exactly the nodes as keys. In an undirected graph the `'bi'` degree of a node is the sum of the values of
its edges, a self loop counted twice; in a directed graph `'out'` is the sum over edges that leave the node, `'in'` over those that reach
it and `'bi'` the sum of the two. -/
theorem C41_degrees (ws : Option String) (strict : Bool) (conv : Val → Option Int) (et : EdgeType) (g : G ν) (hg : g.WF)
    (d : Dict ν Int) (hd : getNodeDegrees ws strict conv et g = .ok d) :
    d.keys = g.nodes.keys ∧
    ∀ n, g.hasNode n = true →
      (g.directed = false → et = .bi →
        d.get? n = some (outDegree (valOf ws conv) g n + edgeVal? (valOf ws conv) g n n)) ∧
      (g.directed = true → et = .out → d.get? n = some (outDegree (valOf ws conv) g n)) ∧
      (g.directed = true → et = .in → d.get? n = some (inDegree (valOf ws conv) g n)) ∧
      (g.directed = true → et = .bi →
        d.get? n = some (outDegree (valOf ws conv) g n + inDegree (valOf ws conv) g n)) := by
  obtain ⟨h1, h2⟩ := degrees_sum hg hd
  refine ⟨h1, ?_⟩
  intro n hn
  have h3 := h2 n hn
  have hout := outDegree_eq hg (valOf ws conv) n
  unfold edgesOf at hout
  rw [sum_filter_if] at hout
  refine ⟨?_, ?_, ?_, ?_⟩
  · rintro hdir rfl
    rw [h3, ← hout, ← loop_eq hg, ← sum_add]
    congr 2
    apply List.map_congr_left
    intro e _
    simp only [contrib, hdir]
    by_cases ha : e.1.1 = n <;> by_cases hb : e.1.2 = n <;> simp [ha, hb]
  · rintro hdir rfl
    rw [h3, ← hout]
    congr 2
    apply List.map_congr_left
    intro e _
    simp [contrib, hdir]
  · rintro hdir rfl
    rw [h3, ← inDegree_eq hg hdir, sum_filter_if]
    congr 2
    apply List.map_congr_left
    intro e _
    simp [contrib]
  · rintro hdir rfl
    rw [h3, ← hout, ← inDegree_eq hg hdir, sum_filter_if, ← sum_add]
    congr 2
    apply List.map_congr_left
    intro e _
    simp [contrib, hdir]

theorem sum_contrib (et : EdgeType) (ks : List ν) (hk : ks.Nodup) (e : ν × ν) (h1 : e.1 ∈ ks) (h2 : e.2 ∈ ks) (v : Int) :
    (ks.map (contrib et e v)).sum = match et with | .bi => 2 * v | .in => v | .out => v | .other => 0 := by
  have key : ∀ m ∈ ks, (ks.map (fun k => if m = k then v else 0)).sum = v := by
    intro m hm
    have := sum_point ks hk m hm v (fun _ => 0) rfl
    have hz : (ks.map (fun _ => (0 : Int))).sum = 0 := by
      clear this hm hk h1 h2
      induction ks with
      | nil => rfl
      | cons _ _ ih => simpa using ih
    rw [hz, Int.add_zero] at this
    refine Eq.trans ?_ this
    congr 1
    apply List.map_congr_left
    intro k _
    by_cases h : m = k
    · simp [h]
    · rw [if_neg h, if_neg (fun h' => h h'.symm)]
  cases et with
  | bi =>
    have e1 : (ks.map (contrib .bi e v)) = ks.map (fun n => (if e.1 = n then v else 0) + (if e.2 = n then v else 0)) := rfl
    rw [e1, sum_add, key _ h1, key _ h2]; simp only []; omega
  | «in» => exact key _ h2
  | out => exact key _ h1
  | other =>
    have e1 : (ks.map (contrib .other e v)) = ks.map (fun _ => 0) := rfl
    rw [e1]; clear key hk h1 h2 e1
    induction ks with
    | nil => rfl
    | cons _ _ ih => simpa using ih

theorem vals_of_keys {κ : Type} [DecidableEq κ] (d : Dict κ Int) (hw : Dict.WF d) (f : κ → Int)
    (h : ∀ k ∈ Dict.keys d, d.get? k = some (f k)) : d.map Prod.snd = (Dict.keys d).map f := by
  unfold Dict.keys
  rw [List.map_map]
  apply List.map_congr_left
  rintro ⟨k, v⟩ he
  have h1 := Dict.get?_of_mem hw he
  have h2 := h k (List.mem_map.2 ⟨_, he, rfl⟩)
  rw [h1] at h2
  simpa using h2

/-- **C41.** The degrees add up to twice the total value of the edges, and to the total for `'in'` and `'out'`. -/
theorem C41_handshake (ws : Option String) (strict : Bool) (conv : Val → Option Int) (et : EdgeType) (g : G ν) (hg : g.WF)
    (d : Dict ν Int) (hd : getNodeDegrees ws strict conv et g = .ok d) :
    (d.map Prod.snd).sum = (if et = .bi then 2 else 1) * (g.edges.map (fun e => valOf ws conv e.2)).sum := by
  obtain ⟨h1, h2⟩ := degrees_sum hg hd
  have hw : Dict.WF d := by unfold Dict.WF; rw [h1]; exact hg.nodes
  rw [vals_of_keys d hw (fun n => (g.edges.map (fun e => contrib et e.1 (valOf ws conv e.2) n)).sum), h1]
  · have het : g.edges = [] ∨ et ≠ .other := by
      rcases (C41_returns ws strict conv et g hg).1 ⟨d, hd⟩ with h | h
      · left
        cases he : g.edges with
        | nil => rfl
        | cons e l =>
          have := edge?_of_mem hg (e := e) (by rw [he]; simp)
          rw [h] at this; cases this
      · exact Or.inr h.1
    have hends := ends_keys hg
    have hnd : g.nodes.keys.Nodup := hg.nodes
    rcases het with he | het
    · rw [he]; simp
    · generalize g.edges = l at hends
      generalize g.nodes.keys = ks at hends hnd
      induction l with
      | nil => simp
      | cons e l ih =>
        simp only [List.map_cons, List.sum_cons]
        rw [sum_add, ih (fun e he => hends e (by simp [he])), Int.mul_add]
        have := sum_contrib et ks hnd e.1 (hends e (by simp)).1 (hends e (by simp)).2 (valOf ws conv e.2)
        change (ks.map (contrib et e.1 (valOf ws conv e.2))).sum + _ = _
        rw [this]
        cases et <;> simp at het ⊢
  · intro k hk
    rw [h1, Dict.mem_keys_iff] at hk
    exact h2 k hk

/-! ## The distribution -/

theorem maxInt_spec (l : List Int) (m : Int) (h : maxInt l = some m) : m ∈ l ∧ ∀ x ∈ l, x ≤ m := by
  cases l with
  | nil => cases h
  | cons x xs =>
    simp only [maxInt, Option.some.injEq] at h
    subst h
    induction xs generalizing x with
    | nil => simp
    | cons y ys ih =>
      simp only [List.foldl_cons]
      obtain ⟨h1, h2⟩ := ih (max x y)
      refine ⟨?_, ?_⟩
      · rcases List.mem_cons.1 h1 with h | h
        · rw [h]
          have : max x y = x ∨ max x y = y := by omega
          rcases this with h | h <;> rw [h] <;> simp
        · simp [h]
      · intro z hz
        have hm := h2 (max x y) (by simp)
        rcases List.mem_cons.1 hz with rfl | hz
        · omega
        · rcases List.mem_cons.1 hz with rfl | hz
          · omega
          · exact h2 z (by simp [hz])

/-- The position `distVec[v]` means. -/
def idxOf (len : Nat) (v : Int) : Int := if v < 0 then v + len else v

theorem bump_fold (l : List Int) (dist : List Nat) :
    ((∃ v ∈ l, idxOf dist.length v < 0 ∨ idxOf dist.length v ≥ dist.length) ∧ l.foldlM bumpAt dist = .error .indexError) ∨
    ((∀ v ∈ l, 0 ≤ idxOf dist.length v ∧ idxOf dist.length v < dist.length) ∧ ∃ dist', l.foldlM bumpAt dist = .ok dist' ∧
      dist'.length = dist.length ∧
      ∀ k, k < dist.length → dist'.getD k 0 = dist.getD k 0 + l.countP (fun v => decide (idxOf dist.length v = (k : Int)))) := by
  induction l generalizing dist with
  | nil => right; exact ⟨by simp, dist, rfl, rfl, by simp⟩
  | cons v l ih =>
    by_cases hv : idxOf dist.length v < 0 ∨ idxOf dist.length v ≥ dist.length
    · left
      refine ⟨⟨v, by simp, hv⟩, ?_⟩
      have : bumpAt dist v = .error .indexError := by
        unfold bumpAt; simp only []; unfold idxOf at hv; rw [if_pos hv]
      simp only [List.foldlM_cons, this, bind, Except.bind]
    · have hb : bumpAt dist v = .ok (dist.set (idxOf dist.length v).toNat (dist.getD (idxOf dist.length v).toNat 0 + 1)) := by
        unfold bumpAt; simp only []; unfold idxOf at hv ⊢; rw [if_neg hv]
      have hlen : (dist.set (idxOf dist.length v).toNat (dist.getD (idxOf dist.length v).toNat 0 + 1)).length = dist.length := by simp
      have hfold : (v :: l).foldlM bumpAt dist =
          l.foldlM bumpAt (dist.set (idxOf dist.length v).toNat (dist.getD (idxOf dist.length v).toNat 0 + 1)) := by
        simp only [List.foldlM_cons, hb, bind, Except.bind]
      rw [hfold]
      rcases ih (dist.set (idxOf dist.length v).toNat (dist.getD (idxOf dist.length v).toNat 0 + 1)) with h | ⟨h1, d', h2, h3, h4⟩
      · left
        rw [hlen] at h
        obtain ⟨⟨x, hx, hx'⟩, h⟩ := h
        exact ⟨⟨x, by simp [hx], hx'⟩, h⟩
      · right
        rw [hlen] at h1 h3 h4
        have hv : 0 ≤ idxOf dist.length v ∧ idxOf dist.length v < dist.length := by omega
        refine ⟨?_, d', h2, h3, ?_⟩
        · intro x hx
          rcases List.mem_cons.1 hx with rfl | hx
          · exact hv
          · exact h1 x hx
        · intro k hk
          rw [h4 k hk, List.countP_cons]
          simp only [List.getD_eq_getElem?_getD, List.getElem?_set]
          by_cases hkk : idxOf dist.length v = (k : Int)
          · have : (idxOf dist.length v).toNat = k := by omega
            simp [this, hk, hkk]; omega
          · have : (idxOf dist.length v).toNat ≠ k := by omega
            simp [this, hkk]

/-- **C41.** The degree distribution: with degrees `d` and largest degree `m`, the call returns exactly when no degree is below `-(m + 1)`;
the list then has `m + 1` entries and entry `k` is the number of nodes whose degree is `k`, or `k - (m + 1)` when negative degrees
occur. -/
theorem C41_distribution (ws : Option String) (strict : Bool) (conv : Val → Option Int) (et : EdgeType) (g : G ν)
    (d : Dict ν Int) (hd : getNodeDegrees ws strict conv et g = .ok d) :
    (d = [] → getDegreeDistribution ws strict conv et g = .error .valueError) ∧
    (∀ m, m ∈ d.map Prod.snd → (∀ x ∈ d.map Prod.snd, x ≤ m) →
      ((∃ dist, getDegreeDistribution ws strict conv et g = .ok dist) ↔ ∀ x ∈ d.map Prod.snd, -(m + 1) ≤ x ∧ 0 ≤ m) ∧
      ∀ dist, getDegreeDistribution ws strict conv et g = .ok dist → (dist.length : Int) = m + 1 ∧
        ∀ k, k < dist.length →
          dist.getD k 0 = (d.map Prod.snd).countP (fun x => decide (x = (k : Int)) || decide (x = (k : Int) - (m + 1)))) := by
  unfold getDegreeDistribution
  rw [hd]
  simp only [bind, Except.bind]
  refine ⟨?_, ?_⟩
  · rintro rfl; rfl
  · intro m hm hmax
    have hmx : maxInt (d.map Prod.snd) = some m := by
      cases h : maxInt (d.map Prod.snd) with
      | none =>
        cases hl : d.map Prod.snd with
        | nil => rw [hl] at hm; simp at hm
        | cons x xs => rw [hl] at h; simp [maxInt] at h
      | some m' =>
        obtain ⟨h1, h2⟩ := maxInt_spec _ _ h
        have := h2 m hm
        have := hmax m' h1
        rw [show m' = m by omega]
    rw [hmx]
    simp only []
    rcases bump_fold (d.map Prod.snd) (List.replicate (m + 1).toNat 0) with ⟨⟨v, hv, hv'⟩, h2⟩ | ⟨h1, d', h2, h3, h4⟩
    · rw [h2]
      simp only [reduceCtorEq, exists_false, false_iff, false_imp_iff, implies_true, and_true]
      intro hall
      have ha := hall v hv
      have hb := hmax v hv
      unfold idxOf at hv'
      simp only [List.length_replicate] at hv'
      split at hv' <;> omega
    · rw [h2]
      simp only [List.length_replicate] at h1 h3 h4
      have h0 : 0 ≤ m := by
        have := h1 m hm
        unfold idxOf at this
        split at this <;> omega
      refine ⟨?_, ?_⟩
      · simp only [Except.ok.injEq, exists_eq', true_iff]
        intro x hx
        have := h1 x hx
        unfold idxOf at this
        split at this <;> omega
      · intro dist hdist
        simp only [Except.ok.injEq] at hdist
        subst hdist
        refine ⟨by omega, ?_⟩
        intro k hk
        rw [h3] at hk
        rw [h4 k hk]
        have : (List.replicate (m + 1).toNat 0).getD k 0 = 0 := by
          simp [List.getD_eq_getElem?_getD, List.getElem?_replicate, hk]
        rw [this, Nat.zero_add]
        apply List.countP_congr
        intro x hx
        have hx1 := h1 x hx
        have hx2 := hmax x hx
        simp only [decide_eq_true_eq, Bool.or_eq_true]
        unfold idxOf at hx1 ⊢
        split <;> rename_i hneg <;> simp only [hneg] at hx1 <;> omega

/-- Sums over a histogram. -/
theorem histogram_sum (l : List Int) (n : Nat) (f : Nat → Int) (w : Int → Int) (hl : ∀ x ∈ l, 0 ≤ x ∧ x < n)
    (hw : ∀ k : Nat, w k = f k) :
    ((List.range n).map (fun k => f k * (l.countP (fun x => decide (x = (k : Int))) : Int))).sum = (l.map w).sum := by
  induction l with
  | nil => simp
  | cons x l ih =>
    have ih := ih (fun x hx => hl x (by simp [hx]))
    obtain ⟨h0, h1⟩ := hl x (by simp)
    simp only [List.map_cons, List.sum_cons, ← ih]
    have e1 : ∀ k : Nat, f k * ((List.countP (fun x => decide (x = (k : Int))) (x :: l) : Nat) : Int) =
        f k * ((List.countP (fun x => decide (x = (k : Int))) l : Nat) : Int) + (if k = x.toNat then w x else 0) := by
      intro k
      rw [List.countP_cons]
      by_cases h : x = (k : Int)
      · subst h
        simp only [decide_true, if_true, Int.toNat_natCast, hw]
        push_cast
        rw [Int.mul_add]; simp
      · have : ¬ k = x.toNat := by omega
        simp [h, this]
    simp only [e1]
    rw [sum_add]
    have := sum_point (List.range n) List.nodup_range x.toNat (by rw [List.mem_range]; omega) (w x) (fun _ => 0) rfl
    rw [this]
    simp
    omega

/-- **C41.** When no degree is negative, the distribution adds up to the number of nodes and, weighted by the degree, to the sum of the
degrees. -/
theorem C41_distribution_sums (ws : Option String) (strict : Bool) (conv : Val → Option Int) (et : EdgeType) (g : G ν)
    (d : Dict ν Int) (hd : getNodeDegrees ws strict conv et g = .ok d) (hne : d ≠ []) (hpos : ∀ x ∈ d.map Prod.snd, 0 ≤ x) :
    ∃ dist, getDegreeDistribution ws strict conv et g = .ok dist ∧
      (∀ k : Nat, k < dist.length → dist.getD k 0 = (d.map Prod.snd).countP (fun x => decide (x = (k : Int)))) ∧
      ((List.range dist.length).map (fun k => (dist.getD k 0 : Int))).sum = d.length ∧
      ((List.range dist.length).map (fun (k : Nat) => (k : Int) * (dist.getD k 0 : Int))).sum = (d.map Prod.snd).sum := by
  have hex : ∃ m, maxInt (d.map Prod.snd) = some m := by
    cases d with
    | nil => exact absurd rfl hne
    | cons x xs => exact ⟨_, rfl⟩
  obtain ⟨m, hm⟩ := hex
  obtain ⟨hm1, hm2⟩ := maxInt_spec _ _ hm
  have h0 : 0 ≤ m := hpos m hm1
  have hD := (C41_distribution ws strict conv et g d hd).2 m hm1 hm2
  obtain ⟨dist, hdist⟩ := hD.1.2 (fun x hx => ⟨by have := hpos x hx; omega, h0⟩)
  obtain ⟨hlen, hk⟩ := hD.2 dist hdist
  have hk' : ∀ k : Nat, k < dist.length → dist.getD k 0 = (d.map Prod.snd).countP (fun x => decide (x = (k : Int))) := by
    intro k hkl
    rw [hk k hkl]
    apply List.countP_congr
    intro x hx
    have := hpos x hx
    simp only [Bool.or_eq_true, decide_eq_true_eq]
    omega
  have hrange : ∀ x ∈ d.map Prod.snd, 0 ≤ x ∧ x < dist.length := fun x hx => ⟨hpos x hx, by have := hm2 x hx; omega⟩
  refine ⟨dist, hdist, hk', ?_, ?_⟩
  · have := histogram_sum (d.map Prod.snd) dist.length (fun _ => 1) (fun _ => 1) hrange (fun _ => rfl)
    rw [sum_ones] at this
    rw [List.length_map] at this
    rw [← this]
    congr 1
    apply List.map_congr_left
    intro k hkm
    rw [hk' k (List.mem_range.1 hkm)]; simp
  · have := histogram_sum (d.map Prod.snd) dist.length (fun k => (k : Int)) (fun x => x) hrange (fun _ => rfl)
    rw [List.map_id'] at this
    rw [← this]
    congr 1
    apply List.map_congr_left
    intro k hkm
    rw [hk' k (List.mem_range.1 hkm)]

/-- `returnType = int` on an integer weight; a string does not convert here. -/
def convNum : Val → Option Int
  | .num n => some n
  | .str _ => none

example : (getNodeDegrees (some "weight") false convNum .bi exG).toOption = some [(1, 10), (2, 5), (3, 5)] ∧
    getNodeDegrees (some "weight") true convNum .bi exG = .error .keyError ∧
    (getNodeDegrees none false convNum .bi exG).toOption = some [(1, 4), (2, 2), (3, 2)] ∧
    (getDegreeDistribution none false convNum .bi exG).toOption = some [0, 0, 2, 0, 1] ∧
    getDegreeDistribution none false convNum .bi (⟨false, [], []⟩ : G Nat) = .error .valueError := by decide

/-- **C41, disagreement.** With negative degrees nodes are counted at the end of the list: here degrees `-1` and `2` share an entry. -/
theorem C41_negative : (getDegreeDistribution (some "w") false convNum .out
    (⟨true, [(1, []), (2, [])], [((1, 2), [("w", .num (-1))]), ((2, 1), [("w", .num 2)])]⟩ : G Nat)).toOption = some [0, 0, 2] := by
  decide

end Verif.Props
