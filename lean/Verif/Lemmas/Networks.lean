import Verif.Model.Networks
import Verif.Spec.Networks
import Verif.Lemmas.Series

set_option autoImplicit false
set_option linter.unusedSectionVars false
namespace Verif.Model.Networks
open Verif.Py Verif.Py.Graph Verif.Spec Verif.Model.Series

variable {ρ α ν τ : Type} [DecidableEq ν]

theorem sum_map_countP {A B : Type} (f : A → List B) (p : B → Bool) (l : List A) :
    (l.flatMap f).countP p = (l.map (fun a => (f a).countP p)).sum := by
  induction l with
  | nil => rfl
  | cons a l ih => simp [ih]

theorem sum_eq_zero_iff {l : List Nat} : l.sum = 0 ↔ ∀ x ∈ l, x = 0 := by
  induction l with
  | nil => simp
  | cons a l ih => simp [ih]

theorem sum_perm {l l' : List Nat} (h : l.Perm l') : l.sum = l'.sum := by
  induction h with
  | nil => rfl
  | cons x _ ih => simp [ih]
  | swap x y l => simp; omega
  | trans _ _ h1 h2 => exact h1.trans h2

/-- The edges from one node to a list of nodes. -/
theorem countP_star (d : Bool) (x u v : ν) (l : List ν) :
    (l.map (fun y => (x, y))).countP (fun p => sameEdge d p (u, v)) =
      if d = true ∨ u = v then (if x = u then l.count v else 0)
      else (if x = u then l.count v else 0) + (if x = v then l.count u else 0) := by
  rw [List.countP_map]
  induction l with
  | nil => simp
  | cons y l ih =>
    rw [List.countP_cons, ih, List.count_cons, List.count_cons]
    have : (((fun p => sameEdge d p (u, v)) ∘ fun y => (x, y)) y) = sameEdge d (x, y) (u, v) := rfl
    rw [this]
    have hs : sameEdge d (x, y) (u, v) = true ↔ (x = u ∧ y = v) ∨ (d = false ∧ x = v ∧ y = u) := by
      rw [sameEdge_iff]; simp
    by_cases hd : d = true
    · subst hd
      simp only [true_or, if_true, hs]
      by_cases h1 : x = u <;> by_cases h2 : y = v <;> simp [h1, h2]
    · have hd : d = false := by simpa using hd
      subst hd
      by_cases huv : u = v
      · subst huv
        simp only [or_true, if_true, hs, or_self]
        by_cases h1 : x = u <;> by_cases h2 : y = u <;> simp [h1, h2]
      · simp only [Bool.false_eq_true, false_or, huv, if_false, hs, true_and]
        by_cases h1 : x = u
        · subst h1
          by_cases h2 : y = v
          · subst h2; simp [huv]
          · simp [h2, huv]
        · by_cases h3 : x = v
          · subst h3
            by_cases h2 : y = u
            · subst h2; simp [h1]
            · simp [h2, h1]
          · simp [h1, h3]

theorem countP_pairs (u v : ν) (l : List ν) :
    (pairs l).countP (fun p => sameEdge false p (u, v)) = pairsShared l u v := by
  unfold pairsShared
  induction l with
  | nil => simp [pairs]
  | cons x l ih =>
    rw [pairs, List.countP_append, ih, countP_star]
    by_cases huv : u = v
    · subst huv
      simp only [or_true, if_true, List.count_cons]
      by_cases hx : x = u
      · subst hx
        simp [Nat.choose_succ_succ]
      · simp [hx]
    · simp only [Bool.false_eq_true, false_or, huv, if_false, List.count_cons]
      by_cases hx : x = u
      · subst hx
        simp [huv, Nat.add_mul]; omega
      · by_cases hx' : x = v
        · subst hx'
          simp [hx, Nat.mul_add]; omega
        · simp [hx, hx']

theorem countP_cross (d : Bool) (u v : ν) (l1 l2 : List ν) :
    (l1.flatMap (fun x => l2.map (fun y => (x, y)))).countP (fun p => sameEdge d p (u, v)) = crossShared d l1 l2 u v := by
  unfold crossShared
  induction l1 with
  | nil => simp
  | cons x l ih =>
    rw [List.flatMap_cons, List.countP_append, ih, countP_star]
    simp only [List.count_cons]
    by_cases h : d = true ∨ u = v
    · simp only [h, if_true]
      by_cases hx : x = u <;> simp [hx, Nat.add_mul, Nat.add_comm]
    · simp only [h, if_false]
      push Not at h
      by_cases hx : x = u
      · subst hx
        simp [h.2, Nat.add_mul]; omega
      · by_cases hx' : x = v
        · subst hx'
          simp [hx, Nat.add_mul]; omega
        · simp [hx, hx']

/-! ## networkMultiLevel -/

/-- The node update of `networkMultiLevel`. -/
def levelNode (c : Bool) (_ : Unit) (o : Option NodeAttr) : NodeAttr :=
  if c then { o.getD default with count := some ((o.getD default).count.getD 0 + 1) } else o.getD default

theorem setNode_setNode {A B : Type} (g : Graph ν A B) (n : ν) (a b : A) : (g.setNode n a).setNode n b = g.setNode n b := by
  unfold setNode
  congr 1
  generalize g.nodes = d
  induction d with
  | nil => simp [Dict.set]
  | cons p d ih =>
    obtain ⟨k, w⟩ := p
    by_cases h : k = n <;> simp [Dict.set, h, ih]

theorem setNode_self {A B : Type} (g : Graph ν A B) (n : ν) (a : A) (h : g.node? n = some a) : g.setNode n a = g := by
  unfold setNode
  unfold node? at h
  cases g with
  | mk dd nodes edges =>
    simp only [Graph.mk.injEq, true_and, and_true] at *
    induction nodes with
    | nil => simp at h
    | cons p d ih =>
      obtain ⟨k, w⟩ := p
      by_cases hk : k = n
      · subst hk; simp [Dict.get?] at h; subst h; simp [Dict.set]
      · simp [Dict.get?, hk] at h; simp [Dict.set, hk, ih h]

theorem countNode_eq (c : Bool) (g : Net ν) (n : ν) : countNode c g n = g.setNode n (levelNode c () (g.node? n)) := by
  unfold countNode levelNode
  cases h : g.node? n with
  | none =>
    have ht : g.touch n = g.setNode n default := by simp [touch, h]
    have hn : (g.setNode n default).node? n = some default := by simp [node?_setNode]
    rw [ht]
    cases c
    · simp
    · simp [hn, setNode_setNode]
  | some a =>
    have ht : g.touch n = g := by simp [touch, h]
    rw [ht]
    cases c
    · simp [setNode_self g n a h]
    · simp [h]

/-- The updates one record makes. -/
def levelEvs : List ν → List (Ev ν Unit)
  | [] => []
  | x :: rest => rest.map (fun y => Ev.edge x y) ++ Ev.node x () :: levelEvs rest

theorem foldl_bump (w : Bool) {A : Type} [Inhabited A] (f : τ → Option A → A) (x : ν) (l : List ν)
    (g : Graph ν A (Option Nat)) :
    l.foldl (fun g y => bumpEdge w g x y) g = run w f g (l.map (fun y => Ev.edge x y)) := by
  induction l generalizing g with
  | nil => rfl
  | cons y l ih => rw [List.foldl_cons, ih, List.map_cons, run_cons]; rfl

theorem multiLevelRecord_eq (c w : Bool) (g : Net ν) (l : List ν) :
    multiLevelRecord c w g l = run w (levelNode c) g (levelEvs l) := by
  induction l generalizing g with
  | nil => rfl
  | cons x l ih =>
    rw [multiLevelRecord, levelEvs, run_append, run_cons, ih, countNode_eq, foldl_bump w (levelNode c)]
    rfl

theorem foldl_run (w : Bool) {A : Type} [Inhabited A] (f : τ → Option A → A) (evs : ρ → List (Ev ν τ)) (recs : List ρ)
    (g : Graph ν A (Option Nat)) :
    recs.foldl (fun g r => run w f g (evs r)) g = run w f g (recs.flatMap evs) := by
  induction recs generalizing g with
  | nil => rfl
  | cons r recs ih => rw [List.foldl_cons, ih, List.flatMap_cons, run_append]

theorem contentsOf_eq {σ : Type} (ident : α → ν) (field : ρ → σ → Option (FieldVal α)) (modes : List σ) (r : ρ) :
    contentsOf ident field modes r = (modes.flatMap (fun t => vals (field r t))).map ident := by
  unfold contentsOf
  congr 1
  have : ∀ acc : List α, modes.foldl (fun contents attr =>
    match field r attr with
    | none => contents
    | some (.list vs) => contents ++ vs
    | some (.single v) => contents ++ [v]) acc = acc ++ modes.flatMap (fun t => vals (field r t)) := by
    induction modes with
    | nil => simp
    | cons t modes ih =>
      intro acc
      rw [List.foldl_cons, ih, List.flatMap_cons]
      cases h : field r t with
      | none => simp [vals]
      | some fv => cases fv <;> simp [vals]
  exact (this []).trans (List.nil_append _)

theorem countP_levelEvs (u v : ν) (l : List ν) : (levelEvs l).countP (Ev.isEdge false u v) = pairsShared l u v := by
  rw [← countP_pairs]
  induction l with
  | nil => rfl
  | cons x l ih =>
    rw [levelEvs, pairs, List.countP_append, List.countP_append, List.countP_cons, ih, List.countP_map, List.countP_map]
    simp only [Ev.isEdge, Bool.false_eq_true, if_false, Nat.add_zero]
    rfl

/-- Number of node updates of `m`. -/
def nodeEvs (m : ν) (evs : List (Ev ν τ)) : Nat :=
  evs.countP (Ev.isNode m)

theorem nodeEvs_of_not_any (m : ν) (l : List (Ev ν τ)) (h : l.any (Ev.mentions m) = false) : nodeEvs m l = 0 := by
  unfold nodeEvs
  rw [List.countP_eq_zero]
  intro e he
  rw [List.any_eq_false] at h
  have := h e he
  cases e with
  | edge _ _ => simp [Ev.isNode]
  | node n t => simpa [Ev.mentions, Ev.isNode] using this

theorem onNode_level (c : Bool) (m : ν) (evs : List (Ev ν Unit)) :
    evs.foldl (Ev.onNode (levelNode c) m) none =
      if evs.any (Ev.mentions m) = true then
        some ⟨if c = true ∧ nodeEvs m evs ≠ 0 then some (nodeEvs m evs) else none, none⟩ else none := by
  induction evs using List.reverseRecOn with
  | nil => simp
  | append_singleton l e ih =>
    rw [List.foldl_append, ih]
    simp only [List.foldl_cons, List.foldl_nil, List.any_append, List.any_cons, List.any_nil, Bool.or_false]
    have h0 := nodeEvs_of_not_any m l
    cases e with
    | edge u v =>
      have hcnt : nodeEvs m (l ++ [Ev.edge u v]) = nodeEvs m l := by simp [nodeEvs, Ev.isNode]
      rw [hcnt]
      have hme : (Ev.edge u v : Ev ν Unit).mentions m = decide (u = m ∨ v = m) := rfl
      rw [hme, Ev.onNode]
      by_cases hm : u = m ∨ v = m
      · rw [if_pos hm]
        simp only [hm, decide_true, Bool.or_true, if_true]
        cases ha : l.any (Ev.mentions m)
        · simp [h0 ha]; rfl
        · simp
      · rw [if_neg hm]
        simp only [hm, decide_false, Bool.or_false]
    | node n t =>
      have hme : (Ev.node n t : Ev ν Unit).mentions m = decide (n = m) := rfl
      rw [hme, Ev.onNode]
      by_cases hn : n = m
      · have hcnt : nodeEvs m (l ++ [Ev.node n t]) = nodeEvs m l + 1 := by simp [nodeEvs, Ev.isNode, hn]
        rw [hcnt, if_pos hn]
        simp only [hn, decide_true, Bool.or_true, if_true]
        congr 1
        cases ha : l.any (Ev.mentions m)
        · simp only [Bool.false_eq_true, if_false, h0 ha]
          cases c <;> rfl
        · unfold levelNode
          cases c
          · simp
          · by_cases h1 : nodeEvs m l = 0 <;> simp [h1]
      · have hcnt : nodeEvs m (l ++ [Ev.node n t]) = nodeEvs m l := by simp [nodeEvs, Ev.isNode, hn]
        rw [hcnt, if_neg hn]
        simp only [hn, decide_false, Bool.or_false]

theorem nodeEvs_level (m : ν) (l : List ν) : nodeEvs m (levelEvs l) = l.count m := by
  induction l with
  | nil => rfl
  | cons x l ih =>
    have h1 : nodeEvs m (levelEvs (x :: l)) = nodeEvs m (l.map (fun y => (Ev.edge x y : Ev ν Unit))) +
        ((if x = m then 1 else 0) + nodeEvs m (levelEvs l)) := by
      rw [levelEvs]
      unfold nodeEvs
      rw [List.countP_append, List.countP_cons]
      simp only [Ev.isNode, decide_eq_true_eq]; omega
    have h2 : nodeEvs m (l.map (fun y => (Ev.edge x y : Ev ν Unit))) = 0 := by
      unfold nodeEvs; rw [List.countP_eq_zero]; simp [Ev.isNode]
    rw [h1, h2, ih, List.count_cons]
    by_cases h : x = m <;> simp [h]; omega

theorem mentions_level (m : ν) (l : List ν) : (∃ e ∈ levelEvs l, e.mentions m = true) ↔ m ∈ l := by
  induction l with
  | nil => simp [levelEvs]
  | cons x l ih =>
    rw [levelEvs]
    simp only [List.mem_append, List.mem_cons, List.mem_map, or_and_right, exists_or, exists_eq_left, ih]
    constructor
    · rintro (⟨e, ⟨y, hy, rfl⟩, h⟩ | h | h)
      · simp [Ev.mentions] at h
        rcases h with rfl | rfl
        · exact Or.inl rfl
        · exact Or.inr hy
      · simp [Ev.mentions] at h; exact Or.inl h.symm
      · exact Or.inr h
    · rintro (rfl | h)
      · right; left; simp [Ev.mentions]
      · exact Or.inr (Or.inr h)

theorem nodeEvs_flatMap (m : ν) (evs : ρ → List (Ev ν τ)) (recs : List ρ) :
    nodeEvs m (recs.flatMap evs) = (recs.map (fun r => nodeEvs m (evs r))).sum := sum_map_countP _ _ _

end Verif.Model.Networks
