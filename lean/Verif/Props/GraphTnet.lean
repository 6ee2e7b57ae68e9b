import Verif.Props.GraphDrops
import Mathlib.Data.List.Perm.Subperm

/-! # C42: tnet files -/
set_option autoImplicit false
set_option linter.unusedSectionVars false
set_option linter.unusedSimpArgs false
namespace Verif.Props
open Verif.Py Verif.Py.Graph Verif.Model.GraphHelpers Verif.Spec

variable {ν : Type} [DecidableEq ν]

/-- The nodes with their numbers, from `i`. -/
def numbered (idx : String) : List (ν × Attrs) → Nat → List (ν × Attrs)
  | [], _ => []
  | n :: rest, i => (n.1, n.2.set idx (.num i)) :: numbered idx rest (i + 1)

theorem tnetNodes_ok (modeName idx : String) (l : List (ν × Attrs)) (i : Nat) (modes : List Val) (s : List ν)
    (hn : modes.Nodup) (hlen : modes.length ≤ 2) (modes' : List Val) (s' : List ν)
    (h : (tnetNodes modeName idx l i modes s).2 = .ok (modes', s')) :
    (tnetNodes modeName idx l i modes s).1 = numbered idx l i ∧ modes <+: modes' ∧ modes'.Nodup ∧ modes'.length ≤ 2 ∧
    (∀ n ∈ l, ∃ m ∈ modes', n.2.get? modeName = some m) ∧
    (∀ m ∈ modes', m ∈ modes ∨ ∃ n ∈ l, n.2.get? modeName = some m) ∧
    (modes = [] → modes'.head? = (l.head?).bind (fun n => n.2.get? modeName)) ∧
    s' = s ++ (l.filter (fun n => decide (modes'.head? = n.2.get? modeName))).map Prod.fst := by
  induction l generalizing i modes s with
  | nil =>
    simp only [tnetNodes, Except.ok.injEq, Prod.mk.injEq] at h
    obtain ⟨rfl, rfl⟩ := h
    refine ⟨rfl, List.prefix_refl _, hn, hlen, by simp, fun m hm => Or.inl hm, ?_, by simp⟩
    rintro rfl; rfl
  | cons node l ih =>
    cases hm : node.2.get? modeName with
    | none =>
      simp [tnetNodes, hm] at h
    | some m =>
      have hstep : tnetNodes modeName idx (node :: l) i modes s =
          if m ∉ modes ∧ ¬ modes.length < 2 then (node :: l, .error .valueError)
          else
            let modes := if m ∉ modes then modes ++ [m] else modes
            let s := if modes.head? = some m then s ++ [node.1] else s
            ((node.1, node.2.set idx (.num i)) :: (tnetNodes modeName idx l (i + 1) modes s).1,
              (tnetNodes modeName idx l (i + 1) modes s).2) := by
        conv_lhs => unfold tnetNodes
        simp only [hm]
      rw [hstep] at h ⊢
      split at h
      · cases h
      · rename_i hc
        rw [if_neg hc]
        simp only [] at h ⊢
        generalize hM : (if m ∉ modes then modes ++ [m] else modes) = M at h ⊢
        have hMn : M.Nodup := by
          rw [← hM]; split
          · rename_i hnm
            rw [List.nodup_append]
            exact ⟨hn, by simp, by rintro a ha b hb rfl; simp at hb; subst hb; exact hnm ha⟩
          · exact hn
        have hMl : M.length ≤ 2 := by
          rw [← hM]; split
          · rename_i hnm
            have : modes.length < 2 := by by_contra h'; exact hc ⟨hnm, h'⟩
            simp; omega
          · exact hlen
        have hmM : m ∈ M := by
          rw [← hM]; split
          · simp
          · rename_i hnm; simpa using hnm
        have hpre : modes <+: M := by
          rw [← hM]; split
          · exact List.prefix_append _ _
          · exact List.prefix_refl _
        obtain ⟨h1, h2, h3, h4, h5, h6, h7, h8⟩ := ih (i + 1) M _ hMn hMl h
        have hhead : modes'.head? = M.head? := by
          obtain ⟨t, ht⟩ := h2
          cases hM' : M with
          | nil => rw [hM'] at hmM; simp at hmM
          | cons x xs => rw [← ht, hM']; rfl
        refine ⟨?_, hpre.trans h2, h3, h4, ?_, ?_, ?_, ?_⟩
        · rw [h1]; rfl
        · intro n hn'
          rcases List.mem_cons.1 hn' with rfl | hn'
          · exact ⟨m, h2.subset hmM, hm⟩
          · exact h5 n hn'
        · intro x hx
          rcases h6 x hx with hx | ⟨n, hn', hx⟩
          · rw [← hM] at hx
            split at hx
            · rcases List.mem_append.1 hx with hx | hx
              · exact Or.inl hx
              · simp at hx; subst hx; exact Or.inr ⟨node, by simp, hm⟩
            · exact Or.inl hx
          · exact Or.inr ⟨n, by simp [hn'], hx⟩
        · rintro rfl
          rw [hhead, ← hM]; simp [hm]
        · rw [h8, hhead, List.filter_cons, hm]
          by_cases hx : M.head? = some m
          · simp [hx]
          · simp [hx]

theorem tnetNodes_succeeds (modeName idx : String) (l : List (ν × Attrs)) (i : Nat) (modes : List Val) (s : List ν)
    (hn : modes.Nodup) (M : List Val) (hM : M.length ≤ 2) (hsub : modes ⊆ M)
    (hall : ∀ n ∈ l, ∃ m ∈ M, n.2.get? modeName = some m) :
    ∃ r, (tnetNodes modeName idx l i modes s).2 = .ok r := by
  induction l generalizing i modes s with
  | nil => exact ⟨_, rfl⟩
  | cons node l ih =>
    obtain ⟨m, hmM, hm⟩ := hall node (by simp)
    have hc : ¬ (m ∉ modes ∧ ¬ modes.length < 2) := by
      rintro ⟨h1, h2⟩
      have hnd : (m :: modes).Nodup := List.nodup_cons.2 ⟨h1, hn⟩
      have hs : m :: modes ⊆ M := by
        intro x hx
        rcases List.mem_cons.1 hx with rfl | hx
        · exact hmM
        · exact hsub hx
      have := (hnd.subperm hs).length_le
      simp at this; omega
    conv => enter [1, r, 1]; unfold tnetNodes
    simp only [hm]
    rw [if_neg hc]
    simp only []
    apply ih
    · split
      · rename_i hnm
        rw [List.nodup_append]
        exact ⟨hn, by simp, by rintro a ha b hb rfl; simp at hb; subst hb; exact hnm ha⟩
      · exact hn
    · split
      · intro x hx
        rcases List.mem_append.1 hx with hx | hx
        · exact hsub hx
        · simp at hx; subst hx; exact hmM
      · exact hsub
    · intro n hn'; exact hall n (by simp [hn'])

theorem get?_numbered (idx : String) (l : List (ν × Attrs)) (i : Nat) (n : ν) :
    Dict.get? (numbered idx l i) n = (Dict.get? l n).map (fun a => a.set idx (.num ((Dict.keys l).idxOf n + i : Nat))) := by
  induction l generalizing i with
  | nil => rfl
  | cons x l ih =>
    obtain ⟨k, a⟩ := x
    simp only [numbered, Dict.get?, ih, Dict.keys, List.map_cons]
    by_cases h : k = n
    · subst h; simp
    · rw [List.idxOf_cons_ne _ h]
      simp only [h, if_false]
      cases Dict.get? l n with
      | none => rfl
      | some b => simp only [Option.map_some]; congr 4; push_cast; omega

/-- The line for an edge. -/
def lineOf (modeName : String) (weighted : Bool) (ws : String) (g : G ν) (m1 : Val) (e : (ν × ν) × Attrs) : Val × Val × Option Val :=
  if modeOf modeName g e.1.1 = some m1 then
    (.num (tnetId g e.1.1), .num (tnetId g e.1.2), if weighted then e.2.get? ws else none)
  else (.num (tnetId g e.1.2), .num (tnetId g e.1.1), if weighted then e.2.get? ws else none)

/-- An edge that can be written. -/
def EdgeOk (modeName : String) (weighted : Bool) (ws : String) (g : G ν) (u v : ν) (a : Attrs) : Prop :=
  modeOf modeName g u ≠ modeOf modeName g v ∧ (weighted = true → (a.get? ws).isSome)

theorem tnetEdges_spec (modeName : String) (weighted : Bool) (idx ws : String) (g g' : G ν) (m1 m2 : Val) (s : List ν)
    (hm12 : m1 ≠ m2)
    (hs : ∀ n, g.hasNode n = true → (n ∈ s ↔ modeOf modeName g n = some m1))
    (hmode : ∀ n, g.hasNode n = true → modeOf modeName g n = some m1 ∨ modeOf modeName g n = some m2)
    (hid : ∀ n, g.hasNode n = true → (g'.node? n).bind (·.get? idx) = some (.num (tnetId g n)))
    (l : List ((ν × ν) × Attrs)) (hl : ∀ e ∈ l, g.hasNode e.1.1 = true ∧ g.hasNode e.1.2 = true)
    (lines : List (Val × Val × Option Val)) :
    ((∀ e ∈ l, EdgeOk modeName weighted ws g e.1.1 e.1.2 e.2) ∧
      tnetEdges weighted idx ws g' s l lines = (lines ++ l.map (lineOf modeName weighted ws g m1), none)) ∨
    ((∃ e ∈ l, ¬ EdgeOk modeName weighted ws g e.1.1 e.1.2 e.2) ∧ (tnetEdges weighted idx ws g' s l lines).2 ≠ none) := by
  induction l generalizing lines with
  | nil => left; simp [tnetEdges]
  | cons e l ih =>
    obtain ⟨hu, hv⟩ := hl e (by simp)
    have ih := ih (fun e he => hl e (by simp [he]))
    have hends : tnetEnds s e.1.1 e.1.2 = if modeOf modeName g e.1.1 = modeOf modeName g e.1.2 then none
        else if modeOf modeName g e.1.1 = some m1 then some (e.1.1, e.1.2) else some (e.1.2, e.1.1) := by
      unfold tnetEnds
      have h1 := hs _ hu
      have h2 := hs _ hv
      rcases hmode _ hu with a | a <;> rcases hmode _ hv with b | b <;> rw [a] at h1 <;> rw [b] at h2 <;>
        simp [a, b, hm12, hm12.symm] at h1 h2 ⊢ <;> simp [h1, h2]
    by_cases hok : EdgeOk modeName weighted ws g e.1.1 e.1.2 e.2
    · have hne := hok.1
      have hstep : tnetEdges weighted idx ws g' s (e :: l) lines =
          tnetEdges weighted idx ws g' s l (lines ++ [lineOf modeName weighted ws g m1 e]) := by
        conv_lhs => unfold tnetEdges
        rw [hends, if_neg hne]
        have hw := hok.2
        unfold lineOf
        by_cases ha : modeOf modeName g e.1.1 = some m1
        · simp only [ha, if_true, hid _ hu, hid _ hv]
          cases weighted with
          | false => simp
          | true =>
            obtain ⟨w, hw⟩ := Option.isSome_iff_exists.1 (hw rfl)
            simp [hw]
        · simp only [ha, if_false, hid _ hu, hid _ hv]
          cases weighted with
          | false => simp
          | true =>
            obtain ⟨w, hw⟩ := Option.isSome_iff_exists.1 (hw rfl)
            simp [hw]
      rw [hstep]
      rcases ih (lines ++ [lineOf modeName weighted ws g m1 e]) with ⟨h1, h2⟩ | ⟨⟨e', h1, h1'⟩, h2⟩
      · left
        refine ⟨?_, by rw [h2]; simp⟩
        intro e' he'
        rcases List.mem_cons.1 he' with rfl | he'
        · exact hok
        · exact h1 e' he'
      · right; exact ⟨⟨e', by simp [h1], h1'⟩, h2⟩
    · right
      refine ⟨⟨e, by simp, hok⟩, ?_⟩
      unfold tnetEdges
      rw [hends]
      by_cases hne : modeOf modeName g e.1.1 = modeOf modeName g e.1.2
      · rw [if_pos hne]; simp
      · rw [if_neg hne]
        have hw : weighted = true ∧ e.2.get? ws = none := by
          unfold EdgeOk at hok
          simp only [ne_eq, hne, not_false_iff, true_and] at hok
          cases weighted with
          | false => simp at hok
          | true => simpa using hok
        by_cases ha : modeOf modeName g e.1.1 = some m1 <;> simp [ha, hid _ hu, hid _ hv, hw.1, hw.2]

/-- What a run of the node loop means for the graph. -/
theorem tnet_nodes_iff (modeName idx : String) (source : Option Val) (g : G ν) (hg : g.WF) :
    ((∃ m1 m2, TwoMode modeName source g m1 m2) ↔
      ∃ modes s, (tnetNodes modeName idx g.nodes 1 source.toList []).2 = .ok (modes, s) ∧ modes.length = 2) ∧
    ∀ m1 m2, TwoMode modeName source g m1 m2 → ∃ s, tnetNodes modeName idx g.nodes 1 source.toList [] =
      (numbered idx g.nodes 1, .ok ([m1, m2], s)) ∧ ∀ n, g.hasNode n = true → (n ∈ s ↔ modeOf modeName g n = some m1) := by
  have hsn : source.toList.Nodup := by cases source <;> simp
  have hsl : source.toList.length ≤ 2 := by cases source <;> simp
  have hmem : ∀ n a, (n, a) ∈ g.nodes ↔ g.node? n = some a := fun n a => (Dict.get?_eq_some_iff hg.nodes n a).symm
  have hmode : ∀ n a, (n, a) ∈ g.nodes → modeOf modeName g n = a.get? modeName := by
    intro n a h; unfold modeOf; rw [(hmem n a).1 h]; rfl
  have fwd : ∀ m1 m2, TwoMode modeName source g m1 m2 → ∃ s, tnetNodes modeName idx g.nodes 1 source.toList [] =
      (numbered idx g.nodes 1, .ok ([m1, m2], s)) ∧ ∀ n, g.hasNode n = true → (n ∈ s ↔ modeOf modeName g n = some m1) := by
    rintro m1 m2 ⟨h1, h2, ⟨n2, h3⟩, h4⟩
    have hall : ∀ n ∈ g.nodes, ∃ m ∈ [m1, m2], n.2.get? modeName = some m := by
      intro n hn
      have := h2 n.1 (by unfold hasNode; rw [(hmem n.1 n.2).1 hn]; rfl)
      rw [hmode n.1 n.2 hn] at this
      rcases this with h | h
      · exact ⟨m1, by simp, h⟩
      · exact ⟨m2, by simp, h⟩
    have hsub : source.toList ⊆ [m1, m2] := by
      cases source with
      | none => simp
      | some x => simp only [] at h4; subst h4; simp
    obtain ⟨⟨modes, s⟩, hr⟩ := tnetNodes_succeeds modeName idx g.nodes 1 source.toList [] hsn [m1, m2] (by simp) hsub hall
    obtain ⟨k1, k2, k3, k4, k5, k6, k7, k8⟩ := tnetNodes_ok modeName idx g.nodes 1 source.toList [] hsn hsl modes s hr
    have hm2 : m2 ∈ modes := by
      unfold modeOf at h3
      cases hx : g.node? n2 with
      | none => rw [hx] at h3; cases h3
      | some a =>
        rw [hx] at h3
        obtain ⟨m, km, hm⟩ := k5 (n2, a) ((hmem _ _).2 hx)
        simp only [Option.bind_some] at h3
        rw [hm] at h3; cases h3; exact km
    have hhead : modes.head? = some m1 := by
      cases source with
      | none =>
        obtain ⟨n, a, hh, ha⟩ := h4
        rw [k7 rfl, hh]; exact ha
      | some x =>
        simp only [] at h4; subst h4
        obtain ⟨t, ht⟩ := k2
        rw [← ht]; rfl
    have hmodes : modes = [m1, m2] := by
      cases modes with
      | nil => simp at hhead
      | cons a t =>
        simp only [List.head?_cons, Option.some.injEq] at hhead
        subst hhead
        have hm2' : m2 ∈ t := by
          rcases List.mem_cons.1 hm2 with h | h
          · exact absurd h.symm h1
          · exact h
        cases t with
        | nil => simp at hm2'
        | cons b t' =>
          simp only [List.length_cons] at k4
          have : t' = [] := by cases t' with
            | nil => rfl
            | cons _ _ => simp at k4
          subst this
          simp at hm2'
          rw [hm2']
    subst hmodes
    refine ⟨s, Prod.ext k1 hr, ?_⟩
    intro n hn
    rw [k8]
    simp only [List.nil_append, List.mem_map, List.mem_filter, List.head?_cons, decide_eq_true_eq]
    constructor
    · rintro ⟨e, ⟨he, hx⟩, rfl⟩
      rw [hmode e.1 e.2 he]; exact (of_decide_eq_true hx).symm
    · intro hx
      unfold hasNode at hn
      obtain ⟨a, ha⟩ := Option.isSome_iff_exists.1 hn
      refine ⟨(n, a), ⟨(hmem _ _).2 ha, ?_⟩, rfl⟩
      rw [hmode n a ((hmem _ _).2 ha)] at hx
      exact decide_eq_true hx.symm
  refine ⟨⟨?_, ?_⟩, fwd⟩
  · rintro ⟨m1, m2, h⟩
    obtain ⟨s, h1, _⟩ := fwd m1 m2 h
    exact ⟨[m1, m2], s, by rw [h1], rfl⟩
  · rintro ⟨modes, s, hr, hlen⟩
    obtain ⟨k1, k2, k3, k4, k5, k6, k7, k8⟩ := tnetNodes_ok modeName idx g.nodes 1 source.toList [] hsn hsl modes s hr
    match modes, hlen with
    | [m1, m2], _ =>
      have h12 : m1 ≠ m2 := by
        rintro rfl; simp at k3
      have hocc : ∀ m, (∃ n ∈ g.nodes, n.2.get? modeName = some m) → ∃ n, modeOf modeName g n = some m := by
        rintro m ⟨n, hn, hm⟩; exact ⟨n.1, by rw [hmode n.1 n.2 hn]; exact hm⟩
      refine ⟨m1, m2, h12, ?_, ?_, ?_⟩
      · intro n hn
        unfold hasNode at hn
        obtain ⟨a, ha⟩ := Option.isSome_iff_exists.1 hn
        obtain ⟨m, km, hm⟩ := k5 (n, a) ((hmem _ _).2 ha)
        rw [hmode n a ((hmem _ _).2 ha)]
        simp only [List.mem_cons, List.not_mem_nil, or_false] at km
        rcases km with rfl | rfl
        · exact Or.inl hm
        · exact Or.inr hm
      · rcases k6 m2 (by simp) with h | h
        · cases source with
          | none => simp at h
          | some x =>
            simp at h
            obtain ⟨t, ht⟩ := k2
            simp at ht
            exact absurd (ht.1.symm.trans h.symm) h12
        · exact hocc m2 h
      · cases source with
        | some x =>
          obtain ⟨t, ht⟩ := k2
          simp at ht
          exact ht.1
        | none =>
          have := k7 rfl
          cases hh : g.nodes.head? with
          | none => rw [hh] at this; simp at this
          | some p =>
            rw [hh] at this
            simp at this
            exact ⟨p.1, p.2, rfl, this.symm⟩

/-- **C42.** `writeTnetFile` succeeds exactly when the graph has exactly two modes (the requested source mode among them), every edge joins
nodes of different modes and, for a weighted file, every edge has a weight. -/
theorem C42_succeeds (modeName : String) (weighted : Bool) (source : Option Val) (idx ws : String) (g : G ν) (hg : g.WF) :
    (writeTnetFile modeName weighted source idx ws g).2.2 = none ↔
      (∃ m1 m2, TwoMode modeName source g m1 m2) ∧
      ∀ u v a, g.edge? u v = some a → modeOf modeName g u ≠ modeOf modeName g v ∧ (weighted = true → (a.get? ws).isSome) := by
  obtain ⟨hiff, hfwd⟩ := tnet_nodes_iff modeName idx source g hg
  have hall : (∀ u v a, g.edge? u v = some a → modeOf modeName g u ≠ modeOf modeName g v ∧ (weighted = true → (a.get? ws).isSome)) ↔
      ∀ e ∈ g.edges, EdgeOk modeName weighted ws g e.1.1 e.1.2 e.2 := by
    constructor
    · intro h e he; exact h _ _ _ (edge?_of_mem hg he)
    · intro h u v a h1
      obtain ⟨e, he', hs, rfl⟩ := (edge?_eq_some_iff hg _ _ _).1 h1
      have := h e he'
      rw [sameEdge_iff] at hs
      rcases hs with hs | ⟨_, h3, h4⟩
      · rw [hs] at this; exact this
      · simp only [] at h3 h4; rw [h3, h4] at this; exact ⟨this.1.symm, this.2⟩
  rw [hall]
  by_cases hT : ∃ m1 m2, TwoMode modeName source g m1 m2
  · obtain ⟨m1, m2, hT⟩ := hT
    obtain ⟨s, h1, h2⟩ := hfwd m1 m2 hT
    have hid : ∀ n, g.hasNode n = true →
        (({ g with nodes := numbered idx g.nodes 1 } : G ν).node? n).bind (·.get? idx) = some (.num (tnetId g n)) := by
      intro n hn
      unfold node?
      rw [get?_numbered]
      unfold hasNode node? at hn
      obtain ⟨a, ha⟩ := Option.isSome_iff_exists.1 hn
      simp [ha, tnetId]
    have hw : (writeTnetFile modeName weighted source idx ws g).2.2 =
        (tnetEdges weighted idx ws { g with nodes := numbered idx g.nodes 1 } s g.edges []).2 := by
      unfold writeTnetFile; rw [h1]; simp
    rw [hw]
    rcases tnetEdges_spec modeName weighted idx ws g { g with nodes := numbered idx g.nodes 1 } m1 m2 s hT.1 h2 hT.2.1 hid g.edges hg.ends []
      with ⟨k1, k2⟩ | ⟨⟨e, k1, k1'⟩, k2⟩
    · rw [k2]; simp only [true_iff]; exact ⟨⟨m1, m2, hT⟩, k1⟩
    · simp only [k2, false_iff]
      rintro ⟨_, h⟩; exact k1' (h e k1)
  · simp only [hT, false_and, iff_false]
    unfold writeTnetFile
    cases hr : (tnetNodes modeName idx g.nodes 1 source.toList []).2 with
    | error e => simp [hr]
    | ok r =>
      obtain ⟨modes, s⟩ := r
      have : modes.length ≠ 2 := fun h => hT (hiff.2 ⟨modes, s, hr, h⟩)
      simp [hr, this]

/-- **C42.** On success every node has gained its number under `idx` and nothing else changed; the numbers are the positions `1..n`, all
different; and the file has one line per edge, in order: the number of the end of the first mode, that of the other end, and the weight
when asked for. -/
theorem C42_file (modeName : String) (weighted : Bool) (source : Option Val) (idx ws : String) (g : G ν) (hg : g.WF)
    (m1 m2 : Val) (hT : TwoMode modeName source g m1 m2) (hok : (writeTnetFile modeName weighted source idx ws g).2.2 = none) :
    (∀ n, (writeTnetFile modeName weighted source idx ws g).1.node? n =
      (g.node? n).map (fun a => a.set idx (.num (tnetId g n)))) ∧
    (writeTnetFile modeName weighted source idx ws g).1.edges = g.edges ∧
    (∀ n, g.hasNode n = true → 1 ≤ tnetId g n ∧ tnetId g n ≤ g.nodes.length) ∧
    (∀ n m, g.hasNode n = true → g.hasNode m = true → tnetId g n = tnetId g m → n = m) ∧
    (writeTnetFile modeName weighted source idx ws g).2.1 = some (g.edges.map (fun e =>
      if modeOf modeName g e.1.1 = some m1 then
        (.num (tnetId g e.1.1), .num (tnetId g e.1.2), if weighted then e.2.get? ws else none)
      else (.num (tnetId g e.1.2), .num (tnetId g e.1.1), if weighted then e.2.get? ws else none))) := by
  obtain ⟨s, h1, h2⟩ := (tnet_nodes_iff modeName idx source g hg).2 m1 m2 hT
  have hid : ∀ n, g.hasNode n = true →
      (({ g with nodes := numbered idx g.nodes 1 } : G ν).node? n).bind (·.get? idx) = some (.num (tnetId g n)) := by
    intro n hn
    unfold node?
    rw [get?_numbered]
    unfold hasNode node? at hn
    obtain ⟨a, ha⟩ := Option.isSome_iff_exists.1 hn
    simp [ha, tnetId]
  have hw : writeTnetFile modeName weighted source idx ws g =
      ({ g with nodes := numbered idx g.nodes 1 },
        some (tnetEdges weighted idx ws { g with nodes := numbered idx g.nodes 1 } s g.edges []).1,
        (tnetEdges weighted idx ws { g with nodes := numbered idx g.nodes 1 } s g.edges []).2) := by
    unfold writeTnetFile; rw [h1]; simp
  rw [hw] at hok ⊢
  have hk : ∀ n, g.hasNode n = true → n ∈ g.nodes.keys := by
    intro n hn; rw [Dict.mem_keys_iff]; exact hn
  refine ⟨?_, rfl, ?_, ?_, ?_⟩
  · intro n
    show Dict.get? (numbered idx g.nodes 1) n = _
    rw [get?_numbered]; rfl
  · intro n hn
    have := List.idxOf_lt_length_of_mem (hk n hn)
    unfold tnetId
    simp only [Dict.keys, List.length_map] at this ⊢
    omega
  · intro n m hn hm heq
    unfold tnetId at heq
    exact (List.idxOf_inj (hk n hn)).1 (by omega)
  · rcases tnetEdges_spec modeName weighted idx ws g { g with nodes := numbered idx g.nodes 1 } m1 m2 s hT.1 h2 hT.2.1 hid g.edges hg.ends []
      with ⟨k1, k2⟩ | ⟨⟨e, k1, k1'⟩, k2⟩
    · rw [k2]; rfl
    · exact absurd hok k2

/-- Two authors and two papers. -/
def exTwo : G Nat :=
  ⟨false, [(1, [("t", .str "P")]), (2, [("t", .str "A")]), (3, [("t", .str "A")]), (4, [("t", .str "P")])],
    [((1, 2), [("weight", .num 3)]), ((3, 1), [("weight", .num 1)]), ((4, 3), [("weight", .num 2)])]⟩

example : exTwo.WF ∧ TwoMode "t" (some (.str "A")) exTwo (.str "A") (.str "P") ∧
    (writeTnetFile "t" true (some (.str "A")) "tnet-ID" "weight" exTwo).2 =
      (some [(.num 2, .num 1, some (.num 3)), (.num 3, .num 1, some (.num 1)), (.num 3, .num 4, some (.num 2))], none) ∧
    (writeTnetFile "t" true none "tnet-ID" "weight" exTwo).2.1 =
      some [(.num 1, .num 2, some (.num 3)), (.num 1, .num 3, some (.num 1)), (.num 4, .num 3, some (.num 2))] ∧
    (writeTnetFile "t" true (some (.str "X")) "tnet-ID" "weight" exTwo).2 = (none, some .valueError) := by
  refine ⟨⟨by decide, by decide, by decide⟩, ⟨by decide, ?_, ⟨1, by decide⟩, rfl⟩, by decide, by decide, by decide⟩
  intro n hn
  have : n ∈ exTwo.nodes.keys := by rw [Dict.mem_keys_iff]; exact hn
  simp only [exTwo, Dict.keys, List.map_cons, List.map_nil, List.mem_cons, List.not_mem_nil, or_false] at this
  rcases this with rfl | rfl | rfl | rfl <;> decide

end Verif.Props
