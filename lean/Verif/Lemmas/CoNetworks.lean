import Verif.Model.CoNetworks
import Verif.Lemmas.Networks2

set_option autoImplicit false
set_option linter.unusedSectionVars false
set_option linter.unusedSimpArgs false
namespace Verif.Model.CoNetworks
open Verif.Py Verif.Py.Graph Verif.Spec Verif.Model.Networks

variable {ρ ν ι : Type} [DecidableEq ν] [Inhabited ι]

def coUpd (count : Bool) (info : ι) : Option (CoAttr ι) → CoAttr ι
  | none => { count := if count then some 1 else none, info := info }
  | some a => if count then { a with count := some (a.count.getD 0 + 1) } else a

def starEvs : List (ν × ι) → List (Ev ν ι)
  | [] => []
  | a :: rest => .node a.1 a.2 :: (rest.flatMap (fun b => [.node b.1 b.2, .edge a.1 b.1]) ++ starEvs rest)

theorem coNode_eq (count w : Bool) (g : CoNet ν ι) (n : ν) (info : ι) :
    coNode count g n info = apply w (coUpd count) g (.node n info) := by
  have hev : apply w (coUpd count) g (.node n info) = g.setNode n (coUpd count info (g.node? n)) := rfl
  rw [hev]
  unfold coNode coUpd
  cases h : g.node? n with
  | none => rfl
  | some a =>
    cases count
    · simp [setNode_self _ _ _ h]
    · rfl

theorem coRecord_eq (count w : Bool) (g : CoNet ν ι) (l : List (ν × ι)) :
    coRecord count w g l = run w (coUpd count) g (starEvs l) := by
  induction l generalizing g with
  | nil => rfl
  | cons a rest ih =>
    rw [coRecord, starEvs, run_cons, run_append, ih, coNode_eq count w]
    congr 1
    unfold run
    rw [List.foldl_flatMap]
    congr 1
    funext g b
    rw [coNode_eq count w]
    rfl

theorem find_mentions_star (m : ν) (l : List (ν × ι)) :
    (starEvs l).find? (Ev.mentions m) = (l.find? (fun p => decide (p.1 = m))).map (fun p => Ev.node p.1 p.2) ∧
    (starEvs l).find? (Ev.isNode m) = (l.find? (fun p => decide (p.1 = m))).map (fun p => Ev.node p.1 p.2) := by
  induction l with
  | nil => simp [starEvs]
  | cons a rest ih =>
    by_cases ha : a.1 = m
    · simp [starEvs, Ev.mentions, Ev.isNode, ha]
    · have n1 : ¬ Ev.mentions m (Ev.node a.1 a.2) = true := by simp only [Ev.mentions, decide_eq_true_eq]; exact ha
      have n2 : ¬ Ev.isNode m (Ev.node a.1 a.2) = true := by simp only [Ev.isNode, decide_eq_true_eq]; exact ha
      rw [starEvs, List.find?_cons_of_neg n1, List.find?_cons_of_neg n2,
        List.find?_cons_of_neg (by simp [ha]), List.find?_append, List.find?_append, ih.1, ih.2]
      have hfl : (rest.flatMap (fun b => [Ev.node b.1 b.2, .edge a.1 b.1])).find? (Ev.mentions m) =
          (rest.find? (fun p => decide (p.1 = m))).map (fun p => Ev.node p.1 p.2) ∧
        (rest.flatMap (fun b => [Ev.node b.1 b.2, .edge a.1 b.1])).find? (Ev.isNode m) =
          (rest.find? (fun p => decide (p.1 = m))).map (fun p => Ev.node p.1 p.2) := by
        clear ih
        induction rest with
        | nil => simp
        | cons b rest ih =>
          rw [List.flatMap_cons]
          by_cases hb : b.1 = m
          · simp [Ev.mentions, Ev.isNode, hb]
          · simp [Ev.mentions, Ev.isNode, hb, ha, ih.1, ih.2]
      rw [hfl.1, hfl.2]
      cases rest.find? (fun p => decide (p.1 = m)) <;> simp

/-- Sum of the positions, counted from 1, at which a name stands. -/
def posSum (m : ν) (l : List ν) : Nat := (l.zipIdx.map (fun p => if p.1 = m then p.2 + 1 else 0)).sum

theorem posSum_offset (m : ν) (l : List ν) (k : Nat) :
    ((l.zipIdx k).map (fun p => if p.1 = m then p.2 + 1 else 0)).sum = posSum m l + k * l.count m := by
  unfold posSum
  have gen : ∀ (l : List ν) (j k : Nat), ((l.zipIdx (j + k)).map (fun p => if p.1 = m then p.2 + 1 else 0)).sum =
      ((l.zipIdx j).map (fun p => if p.1 = m then p.2 + 1 else 0)).sum + k * l.count m := by
    intro l
    induction l with
    | nil => simp
    | cons a l ih =>
      intro j k
      simp only [List.zipIdx_cons, List.map_cons, List.sum_cons, List.count_cons]
      have : j + k + 1 = (j + 1) + k := by omega
      rw [this, ih (j + 1) k]
      by_cases h : a = m
      · simp [h, Nat.mul_add]; omega
      · simp [h]
  simpa using gen l 0 k

theorem posSum_cons (m a : ν) (l : List ν) :
    posSum m (a :: l) = (if a = m then 1 else 0) + (l.count m + posSum m l) := by
  have := posSum_offset m l 1
  unfold posSum at this ⊢
  simp only [List.zipIdx_cons, List.map_cons, List.sum_cons, Nat.zero_add, this, Nat.one_mul]
  omega

theorem nodeEvs_star (m : ν) (l : List (ν × ι)) :
    (starEvs l).countP (Ev.isNode m) = posSum m (l.map Prod.fst) := by
  induction l with
  | nil => simp [starEvs, posSum]
  | cons a rest ih =>
    rw [starEvs, List.countP_cons, List.countP_append, ih, List.map_cons, posSum_cons]
    have : (rest.flatMap (fun b => [Ev.node b.1 b.2, .edge a.1 b.1])).countP (Ev.isNode m) = (rest.map Prod.fst).count m := by
      clear ih
      induction rest with
      | nil => simp
      | cons b rest ih => 
        rw [List.flatMap_cons, List.countP_append, ih, List.map_cons, List.count_cons]
        simp [Ev.isNode, List.countP_cons]; omega
    rw [this]
    simp [Ev.isNode]; omega

theorem countP_star_edges (u v : ν) (l : List (ν × ι)) :
    (starEvs l).countP (Ev.isEdge false u v) = pairsShared (l.map Prod.fst) u v := by
  rw [← countP_pairs]
  induction l with
  | nil => rfl
  | cons a rest ih =>
    rw [starEvs, List.countP_cons, List.countP_append, ih, List.map_cons, pairs, List.countP_append]
    have : (rest.flatMap (fun b => [Ev.node b.1 b.2, .edge a.1 b.1])).countP (Ev.isEdge false u v) =
        ((rest.map Prod.fst).map (fun y => (a.1, y))).countP (fun p => sameEdge false p (u, v)) := by
      clear ih
      induction rest with
      | nil => rfl
      | cons b rest ih =>
        rw [List.flatMap_cons, List.countP_append, ih]
        simp only [List.map_cons, List.countP_cons, List.countP_nil, Ev.isEdge]
        rw [Nat.add_comm]
        by_cases h : sameEdge false (a.1, b.1) (u, v) = true <;> simp [h]
    rw [this]
    simp [Ev.isEdge]

/-- The attributes of a node when it is updated before any edge touches it. -/
theorem fold_co (count : Bool) (m : ν) (evs : List (Ev ν ι))
    (hfirst : evs.find? (Ev.mentions m) = evs.find? (Ev.isNode m)) :
    (evs.foldl (Ev.onNode (coUpd count) m) none =
      match evs.find? (Ev.isNode m) with
      | some (.node _ i) => some { count := if count then some (evs.countP (Ev.isNode m)) else none, info := i }
      | _ => none) := by
  have some_case : ∀ (evs : List (Ev ν ι)) (c : Nat) (i : ι),
      evs.foldl (Ev.onNode (coUpd count) m) (some { count := if count then some c else none, info := i }) =
        some { count := if count then some (c + evs.countP (Ev.isNode m)) else none, info := i } := by
    intro evs
    induction evs with
    | nil => intro c i; simp
    | cons e evs ih =>
      intro c i
      rw [List.foldl_cons, List.countP_cons]
      cases e with
      | edge u v =>
        have : Ev.onNode (coUpd count) m (some ⟨if count then some c else none, i⟩) (Ev.edge u v) =
            some ⟨if count then some c else none, i⟩ := by simp [Ev.onNode]
        rw [this, ih]; simp [Ev.isNode]
      | node n t =>
        by_cases hn : n = m
        · have : Ev.onNode (coUpd count) m (some ⟨if count then some c else none, i⟩) (Ev.node n t) =
            some ⟨if count then some (c + 1) else none, i⟩ := by cases count <;> simp [Ev.onNode, hn, coUpd]
          rw [this, ih]; simp only [Ev.isNode, hn, decide_true, if_true, Nat.add_assoc, Nat.add_comm 1]
        · have : Ev.onNode (coUpd count) m (some ⟨if count then some c else none, i⟩) (Ev.node n t) =
            some ⟨if count then some c else none, i⟩ := by simp [Ev.onNode, hn]
          rw [this, ih]; simp [Ev.isNode, hn]
  induction evs with
  | nil => rfl
  | cons e evs ih =>
    rw [List.foldl_cons]
    cases e with
    | edge u v =>
      by_cases hm : u = m ∨ v = m
      · rw [List.find?_cons_of_pos (by simpa [Ev.mentions] using hm), List.find?_cons_of_neg (by simp [Ev.isNode])] at hfirst
        have := List.find?_some hfirst.symm
        simp [Ev.isNode] at this
      · rw [List.find?_cons_of_neg (by simpa [Ev.mentions] using hm), List.find?_cons_of_neg (by simp [Ev.isNode])] at hfirst
        have : Ev.onNode (coUpd count) m none (Ev.edge u v) = (none : Option (CoAttr ι)) := by simp [Ev.onNode, hm]
        rw [this, ih hfirst, List.find?_cons_of_neg (by simp [Ev.isNode]), List.countP_cons]
        simp [Ev.isNode]
    | node n t =>
      by_cases hn : n = m
      · have : Ev.onNode (coUpd count) m none (Ev.node n t) = some ⟨if count then some 1 else none, t⟩ := by
          simp [Ev.onNode, hn, coUpd]
        rw [this, some_case, List.find?_cons_of_pos (by simp [Ev.isNode, hn]), List.countP_cons]
        simp [Ev.isNode, hn, Nat.add_comm]
      · rw [List.find?_cons_of_neg (by simp [Ev.mentions, hn]), List.find?_cons_of_neg (by simp [Ev.isNode, hn])] at hfirst
        have : Ev.onNode (coUpd count) m none (Ev.node n t) = (none : Option (CoAttr ι)) := by simp [Ev.onNode, hn]
        rw [this, ih hfirst, List.find?_cons_of_neg (by simp [Ev.isNode, hn]), List.countP_cons]
        simp [Ev.isNode, hn]

/-- The whole loop, for any list of name lists. -/
theorem co_spec (count w : Bool) (ls : List (List (ν × ι))) :
    let g := ls.foldl (fun g l => coRecord count w g l) (Graph.empty false : CoNet ν ι)
    g.WF ∧ g.directed = false ∧
    (∀ u v, g.edge? u v = edgeFor w (ls.map (fun l => pairsShared (l.map Prod.fst) u v)).sum) ∧
    (∀ m, g.node? m =
      (ls.flatten.find? (fun p => decide (p.1 = m))).map (fun p =>
        { count := if count then some (ls.map (fun l => posSum m (l.map Prod.fst))).sum else none, info := p.2 })) := by
  have hg : ls.foldl (fun g l => coRecord count w g l) (Graph.empty false : CoNet ν ι) =
      run w (coUpd count) (Graph.empty false) (ls.flatMap starEvs) := by
    rw [← foldl_run]; congr 1; funext g l; exact coRecord_eq _ _ _ _
  obtain ⟨h1, h2, h3, h4⟩ := run_spec w false (coUpd count) (ls.flatMap starEvs)
  rw [← hg] at h1 h2 h3 h4
  refine ⟨h1, h2, fun u v => ?_, fun m => ?_⟩
  · rw [h3, sum_map_countP]; simp only [countP_star_edges]; rfl
  · have hf : (ls.flatMap starEvs).find? (Ev.mentions m) =
          (ls.flatten.find? (fun p => decide (p.1 = m))).map (fun p => Ev.node p.1 p.2) ∧
        (ls.flatMap starEvs).find? (Ev.isNode m) =
          (ls.flatten.find? (fun p => decide (p.1 = m))).map (fun p => Ev.node p.1 p.2) := by
      clear hg h1 h2 h3 h4
      induction ls with
      | nil => simp
      | cons l ls ih =>
        rw [List.flatMap_cons, List.find?_append, List.find?_append, ih.1, ih.2, List.flatten_cons, List.find?_append,
          (find_mentions_star m l).1, (find_mentions_star m l).2]
        cases l.find? (fun p => decide (p.1 = m)) <;> simp
    rw [h4, fold_co count m _ (hf.1.trans hf.2.symm), hf.2, sum_map_countP]
    simp only [nodeEvs_star]
    cases ls.flatten.find? (fun p => decide (p.1 = m)) <;> rfl

end Verif.Model.CoNetworks
