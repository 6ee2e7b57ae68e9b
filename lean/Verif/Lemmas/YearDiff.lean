import Verif.Model.YearDiff
import Verif.Spec.YearDiff
import Verif.Props.CiteNetworks

set_option autoImplicit false
set_option linter.unusedSectionVars false
set_option linter.unusedSimpArgs false
namespace Verif.Lemmas.YearDiff
open Verif.Py Verif.Py.Graph Verif.Model.Citation Verif.Model.CoNetworks Verif.Model.CiteNetworks Verif.Model.YearDiff
  Verif.Spec Verif.Spec.YearDiff

section mapE
variable {ν A B B' : Type} [DecidableEq ν] [Inhabited A] (f : B → B')

/-- The same graph with other attributes on the edges. -/
def mapE (g : Graph ν A B) : Graph ν A B' := ⟨g.directed, g.nodes, g.edges.map (fun e => (e.1, f e.2))⟩

theorem getE_map (d : Bool) (l : List ((ν × ν) × B)) (p : ν × ν) : getE d (l.map (fun e => (e.1, f e.2))) p = (getE d l p).map f := by
  induction l with
  | nil => rfl
  | cons x l ih => obtain ⟨k, b⟩ := x; simp only [List.map_cons, getE, ih]; split <;> rfl

theorem setE_map (d : Bool) (l : List ((ν × ν) × B)) (p : ν × ν) (b : B) :
    setE d (l.map (fun e => (e.1, f e.2))) p (f b) = (setE d l p b).map (fun e => (e.1, f e.2)) := by
  induction l with
  | nil => rfl
  | cons x l ih => obtain ⟨k, b'⟩ := x; simp only [List.map_cons, setE, ih]; split <;> rfl

@[simp] theorem edge?_mapE (g : Graph ν A B) (u v : ν) : (mapE f g).edge? u v = (g.edge? u v).map f := getE_map f _ _ _
@[simp] theorem node?_mapE (g : Graph ν A B) (n : ν) : (mapE f g).node? n = g.node? n := rfl
@[simp] theorem hasEdge_mapE (g : Graph ν A B) (u v : ν) : (mapE f g).hasEdge u v = g.hasEdge u v := by
  unfold hasEdge; rw [edge?_mapE]; cases g.edge? u v <;> rfl
theorem setNode_mapE (g : Graph ν A B) (n : ν) (a : A) : (mapE f g).setNode n a = mapE f (g.setNode n a) := rfl
theorem touch_mapE (g : Graph ν A B) (n : ν) : (mapE f g).touch n = mapE f (g.touch n) := by
  unfold touch; rw [node?_mapE]; cases g.node? n <;> rfl
theorem setEdge_mapE (g : Graph ν A B) (u v : ν) (b : B) : (mapE f g).setEdge u v (f b) = mapE f (g.setEdge u v b) := by
  unfold setEdge
  simp only [touch_mapE]
  simp only [mapE, setE_map]
end mapE

variable {ρ ι : Type} [Inhabited ι]

/-- Only the weights. -/
abbrev weights (g : YearNet ι) : CiteNet ι := mapE EdgeData.weight g

theorem addHead_weights (count : Bool) (g : YearNet ι) (h : NodeId) (i : ι) :
    weights (Model.YearDiff.addHead count g h i) = Model.CiteNetworks.addHead count (weights g) h i := by
  unfold Model.YearDiff.addHead Model.CiteNetworks.addHead
  rw [node?_mapE]
  cases g.node? h <;> rfl

theorem addCited_weights (count : Bool) (g : YearNet ι) (h : NodeId) (i : ι) :
    weights (Model.YearDiff.addCited count g h i) = Model.CiteNetworks.addCited count (weights g) h i := by
  unfold Model.YearDiff.addCited Model.CiteNetworks.addCited coNode
  rw [node?_mapE]
  cases g.node? h with
  | none => rfl
  | some a => cases count <;> rfl

theorem bump_weights (g : YearNet ι) (u v x y : NodeId) (d : Option (Option Nat)) :
    weights (bump g u v x y d) = (match (weights g).edge? u v with
      | some (some w) => (weights g).setEdge u v (some (w + 1))
      | _ => (weights g).setEdge x y (some 1)) := by
  unfold bump
  rw [edge?_mapE]
  rcases g.edge? u v with _ | ⟨_ | w, o⟩
  · exact (setEdge_mapE EdgeData.weight g x y ⟨some 1, _⟩).symm
  · exact (setEdge_mapE EdgeData.weight g x y ⟨some 1, _⟩).symm
  · exact (setEdge_mapE EdgeData.weight g u v ⟨some (w + 1), o⟩).symm

theorem bump_weights_same (g : YearNet ι) (u v : NodeId) (d : Option (Option Nat)) :
    weights (bump g u v u v d) = bumpEdge true (weights g) u v := by
  rw [bump_weights]
  unfold bumpEdge
  rw [if_pos rfl]
  rcases (weights g).edge? u v with _ | _ | w <;> rfl

theorem foldl_weights {γ γ' : Type} (p : γ → γ') (F : YearNet ι → γ → YearNet ι) (F' : CiteNet ι → γ' → CiteNet ι)
    (h : ∀ g c, weights (F g c) = F' (weights g) (p c)) (l : List γ) (g : YearNet ι) :
    weights (l.foldl F g) = (l.map p).foldl F' (weights g) := by
  induction l generalizing g with
  | nil => rfl
  | cons a l ih => rw [List.foldl_cons, List.map_cons, List.foldl_cons, ih, h]

theorem addEdges_weights (g : YearNet ι) (es : List (NodeId × NodeId)) :
    weights (Model.YearDiff.addEdges g es) = Model.CiteNetworks.addEdges (weights g) es := by
  unfold Model.YearDiff.addEdges Model.CiteNetworks.addEdges
  have := foldl_weights (ι := ι) id (fun g e => match g.edge? e.1 e.2 with
    | some _ => g
    | none => g.setEdge e.1 e.2 ⟨none, none⟩) (fun g e => match g.edge? e.1 e.2 with
    | some _ => g
    | none => g.setEdge e.1 e.2 none) (by
      intro g e
      dsimp only [id]
      rw [edge?_mapE]
      cases g.edge? e.1 e.2 with
      | none => exact (setEdge_mapE EdgeData.weight g e.1 e.2 ⟨none, none⟩).symm
      | some b => rfl) es g
  rw [List.map_id] at this
  exact this

theorem linkHead_weights (whole w rtc : Bool) (g : YearNet ι) (h : NodeId) (ids : List (NodeId × Option Nat)) :
    (Model.YearDiff.linkHead whole w rtc g h ids).map weights = Model.CiteNetworks.linkHead whole w rtc (weights g) h (ids.map Prod.fst) := by
  unfold Model.YearDiff.linkHead Model.CiteNetworks.linkHead
  cases whole <;> cases w
  · simp only [Bool.false_eq_true, if_false, List.any_map, Function.comp_def, hasEdge_mapE]
    split <;> rfl
  · simp only [Bool.false_eq_true, if_false, if_true]
    refine congrArg Except.ok (foldl_weights Prod.fst _ _ ?_ ids g)
    intro g c
    cases rtc
    · simp only [Bool.false_eq_true, if_false]
      exact bump_weights _ _ _ _ _ _
    · exact bump_weights_same _ _ _ _
  · simp only [Bool.false_eq_true, if_false, if_true]
    refine congrArg Except.ok ((addEdges_weights g _).trans ?_)
    simp only [hasEdge_mapE, List.filter_map, List.map_map, Function.comp_def]
  · simp only [if_true]
    refine congrArg Except.ok (foldl_weights Prod.fst _ _ ?_ ids g)
    intro g c
    cases rtc
    · exact bump_weights_same _ _ _ _
    · exact bump_weights_same _ _ _ _

theorem linkAll_weights (w : Bool) (g : YearNet ι) (ids : List NodeId) :
    weights (Model.YearDiff.linkAll w g ids) = Model.CiteNetworks.linkAll w (weights g) ids := by
  unfold Model.YearDiff.linkAll Model.CiteNetworks.linkAll
  cases w
  · simp only [Bool.false_eq_true, if_false, hasEdge_mapE]
    exact addEdges_weights _ _
  · simp only [if_true]
    have := foldl_weights (ι := ι) id (fun g (p : NodeId × NodeId) => bump g p.1 p.2 p.1 p.2 none) (fun g p => bumpEdge true g p.1 p.2)
      (fun g c => bump_weights_same _ _ _ _) (pairs ids) g
    rw [List.map_id] at this
    exact this

theorem mapM_length {A B E : Type} (f : A → Except E B) (l : List A) (l' : List B) (h : l.mapM f = .ok l') : l'.length = l.length := by
  induction l generalizing l' with
  | nil => cases h; rfl
  | cons a l ih =>
    rw [List.mapM_cons] at h
    cases ha : f a with
    | error e => rw [ha] at h; cases h
    | ok b =>
      cases hl : l.mapM f with
      | error e => rw [ha, hl] at h; cases h
      | ok bs => rw [ha, hl] at h; cases h; simp [ih bs hl]

theorem cited_weights (count : Bool) (g : YearNet ι) (l : List (NodeId × ι)) :
    weights (l.foldl (fun g n => Model.YearDiff.addCited count g n.1 n.2) g) = l.foldl (fun g n => Model.CiteNetworks.addCited count g n.1 n.2) (weights g) := by
  have := foldl_weights (ι := ι) id (fun g (n : NodeId × ι) => Model.YearDiff.addCited count g n.1 n.2) (fun g n => Model.CiteNetworks.addCited count g n.1 n.2)
    (fun g c => addCited_weights _ _ _ _) l g
  rw [List.map_id] at this
  exact this

theorem addToNetwork_weights (nt : NodeType) (count w rtc : Bool) (info : Cite → ι) (hd : Cite) (nds : List Cite) (g : YearNet ι) :
    (Model.YearDiff.addToNetwork nt count w rtc info hd nds g).map weights =
      Model.CiteNetworks.addToNetwork nt count w rtc info (some hd) nds (weights g) := by
  unfold Model.YearDiff.addToNetwork Model.CiteNetworks.addToNetwork
  dsimp only
  cases hh : makeID nt hd with
  | error e => rfl
  | ok h =>
    cases hy : (nt.whole && hd.year.isNone)
    · cases hi : nds.mapM (makeID nt) with
      | error e => rfl
      | ok ids =>
        have hlen := mapM_length _ _ _ hi
        have key : (if h.truthy then Model.YearDiff.linkHead nt.whole w rtc
              ((ids.zip (nds.map info)).foldl (fun g n => Model.YearDiff.addCited count g n.1 n.2) (Model.YearDiff.addHead count g h (info hd))) h
              (ids.zip (nds.map (yearDiff hd)))
            else .ok (Model.YearDiff.linkAll w ((ids.zip (nds.map info)).foldl (fun g n => Model.YearDiff.addCited count g n.1 n.2)
              (Model.YearDiff.addHead count g h (info hd))) ids)).map weights =
            (if h.truthy then Model.CiteNetworks.linkHead nt.whole w rtc
              ((ids.zip (nds.map info)).foldl (fun g n => Model.CiteNetworks.addCited count g n.1 n.2) (Model.CiteNetworks.addHead count (weights g) h (info hd))) h ids
            else .ok (Model.CiteNetworks.linkAll w ((ids.zip (nds.map info)).foldl (fun g n => Model.CiteNetworks.addCited count g n.1 n.2)
              (Model.CiteNetworks.addHead count (weights g) h (info hd))) ids)) := by
          rw [← addHead_weights, ← cited_weights]
          split
          · rw [linkHead_weights, List.map_fst_zip (by simp [hlen])]
          · exact congrArg Except.ok (linkAll_weights _ _ _)
        exact key
    · rfl

theorem foldlM_weights {γ : Type} (F : YearNet ι → γ → Except NetErr (YearNet ι)) (F' : CiteNet ι → γ → Except NetErr (CiteNet ι))
    (h : ∀ g c, (F g c).map weights = F' (weights g) c) (l : List γ) (g : YearNet ι) :
    (l.foldlM F g).map weights = l.foldlM F' (weights g) := by
  induction l generalizing g with
  | nil => rfl
  | cons a l ih =>
    rw [List.foldlM_cons, List.foldlM_cons, ← h]
    cases F g a with
    | error e => rfl
    | ok g' => exact ih g'

theorem network_weights (env : Env) (o : Opts) (directed rtc : Bool) (info : Cite → ι) (own : ρ → Cite)
    (cites : ρ → Option (List Cite)) (recs : List ρ) :
    (Model.YearDiff.networkCitation env o directed rtc info own cites recs).map weights =
      Model.CiteNetworks.networkCitation env o directed rtc info own cites recs := by
  unfold Model.YearDiff.networkCitation Model.CiteNetworks.networkCitation
  refine (foldlM_weights _ _ ?_ recs (Graph.empty directed)).trans rfl
  intro g r
  split
  · rfl
  · rcases cites r with _ | _ | ⟨c, cs⟩
    · rfl
    · rfl
    · exact addToNetwork_weights (ι := ι) _ _ _ _ _ _ _ _

/-! ## The first citation along an edge -/

abbrev Link := (NodeId × NodeId) × Option Nat

/-- What a series of weighted links leaves on the edge from `u` to `v`. -/
def after (d : Bool) (es : List Link) (u v : NodeId) : Option EdgeData :=
  (es.find? (fun e => sameEdge d e.1 (u, v))).map (fun e => ⟨some (es.countP (fun e => sameEdge d e.1 (u, v))), some e.2⟩)

/-- The graph has the edges these links leave. -/
def Holds (d : Bool) (g : YearNet ι) (es : List Link) : Prop := g.directed = d ∧ ∀ u v, g.edge? u v = after d es u v

theorem after_congr (d : Bool) (es : List Link) (p q : NodeId × NodeId) (h : sameEdge d p q = true) : after d es p.1 p.2 = after d es q.1 q.2 := by
  have : (fun e : Link => sameEdge d e.1 (p.1, p.2)) = fun e => sameEdge d e.1 (q.1, q.2) := by
    funext e
    rw [Bool.eq_iff_iff]
    exact ⟨fun h' => sameEdge_trans h' h, fun h' => sameEdge_trans h' (sameEdge_symm h)⟩
  unfold after
  rw [this]

theorem bump_holds (d : Bool) (g : YearNet ι) (es : List Link) (h : Holds d g es) (u v : NodeId) (x : Option Nat) :
    Holds d (bump g u v u v (some x)) (es ++ [((u, v), x)]) := by
  obtain ⟨hd, he⟩ := h
  have hb : ∃ b, bump g u v u v (some x) = g.setEdge u v b ∧ some b = after d (es ++ [((u, v), x)]) u v := by
    unfold bump
    rw [he u v]
    unfold after
    rw [List.find?_append, List.countP_append]
    cases hf : es.find? (fun e => sameEdge d e.1 (u, v)) with
    | none =>
      have : es.countP (fun e => sameEdge d e.1 (u, v)) = 0 := by
        rw [List.countP_eq_zero]; exact List.find?_eq_none.mp hf
      refine ⟨_, rfl, ?_⟩
      simp [this, sameEdge_refl]
    | some e =>
      refine ⟨_, rfl, ?_⟩
      simp [sameEdge_refl]
  obtain ⟨b, hb, hb2⟩ := hb
  rw [hb]
  refine ⟨by simpa using hd, fun y z => ?_⟩
  rw [edge?_setEdge, hd]
  by_cases hs : sameEdge d (u, v) (y, z) = true
  · rw [if_pos hs, hb2]
    exact after_congr d _ (u, v) (y, z) hs
  · rw [if_neg hs, he]
    unfold after
    rw [List.find?_append, List.countP_append]
    simp [hs]

theorem node_holds (d : Bool) (g : YearNet ι) (es : List Link) (h : Holds d g es) (n : NodeId) (a : CoAttr ι) : Holds d (g.setNode n a) es :=
  ⟨by simpa using h.1, fun u v => by rw [edge?_setNode]; exact h.2 u v⟩

theorem head_holds (d count : Bool) (g : YearNet ι) (es : List Link) (h : Holds d g es) (n : NodeId) (i : ι) : Holds d (Model.YearDiff.addHead count g n i) es := by
  unfold Model.YearDiff.addHead
  split
  · exact node_holds d g es h _ _
  · exact h

theorem cited_holds (d count : Bool) (g : YearNet ι) (es : List Link) (h : Holds d g es) (n : NodeId) (i : ι) : Holds d (Model.YearDiff.addCited count g n i) es := by
  unfold Model.YearDiff.addCited
  split
  · exact node_holds d g es h _ _
  · split
    · exact node_holds d g es h _ _
    · exact h

theorem citeds_holds (d count : Bool) (es : List Link) (l : List (NodeId × ι)) (g : YearNet ι) (h : Holds d g es) :
    Holds d (l.foldl (fun g n => Model.YearDiff.addCited count g n.1 n.2) g) es := by
  induction l generalizing g with
  | nil => exact h
  | cons a l ih => exact ih _ (cited_holds d count g es h _ _)

/-- The link of one cited node. -/
def linkOf (rtc : Bool) (h : NodeId) (n : NodeId × Option Nat) : Link := (if rtc then (h, n.1) else (n.1, h), n.2)

theorem links_hold (d rtc : Bool) (h : NodeId) (l : List (NodeId × Option Nat)) (es : List Link) (g : YearNet ι) (hg : Holds d g es) :
    Holds d (l.foldl (fun g n => if rtc then bump g h n.1 h n.1 (some n.2) else bump g n.1 h n.1 h (some n.2)) g) (es ++ l.map (linkOf rtc h)) := by
  induction l generalizing g es with
  | nil => simpa using hg
  | cons a l ih =>
    have hstep : Holds d (if rtc then bump g h a.1 h a.1 (some a.2) else bump g a.1 h a.1 h (some a.2)) (es ++ [linkOf rtc h a]) := by
      cases rtc
      · exact bump_holds d g es hg _ _ _
      · exact bump_holds d g es hg _ _ _
    have := ih (es ++ [linkOf rtc h a]) _ hstep
    rw [List.append_assoc] at this
    exact this

/-- The links of a record. -/
def linksOf (nt : NodeType) (rtc : Bool) (hd : Cite) (cs : List Cite) : List Link :=
  cs.map (fun c => linkOf rtc (nodeName nt hd) (nodeName nt c, yearDiff hd c))

theorem makeID_whole (nt : NodeType) (hnt : nt = .full ∨ nt = .original) (c : Cite) : makeID nt c = .ok (nodeName nt c) := by
  rcases hnt with rfl | rfl <;> rfl

theorem add_holds (nt : NodeType) (hnt : nt = .full ∨ nt = .original) (count d rtc : Bool) (info : Cite → ι) (hd : Cite) (cs : List Cite)
    (hy : hd.year ≠ none) (hh : (nodeName nt hd).truthy = true) (es : List Link) (g : YearNet ι) (hg : Holds d g es) :
    ∃ g', Model.YearDiff.addToNetwork nt count true rtc info hd cs g = .ok g' ∧ Holds d g' (es ++ linksOf nt rtc hd cs) := by
  have hw : nt.whole = true := by rcases hnt with rfl | rfl <;> rfl
  have hyn : hd.year.isNone = false := by
    cases h : hd.year with
    | none => exact absurd h hy
    | some _ => rfl
  have hids : cs.mapM (makeID nt) = .ok (cs.map (nodeName nt)) := mapM_ok _ _ _ (fun c _ => makeID_whole nt hnt c)
  unfold Model.YearDiff.addToNetwork
  rw [makeID_whole nt hnt, hids, hyn, hw]
  dsimp only [Bind.bind, Except.bind, Bool.true_and]
  simp only [Bool.and_false, Bool.false_eq_true, if_false, hh, if_true, Model.YearDiff.linkHead]
  refine ⟨_, rfl, ?_⟩
  have e : linksOf nt rtc hd cs = ((cs.map (nodeName nt)).zip (cs.map (yearDiff hd))).map (linkOf rtc (nodeName nt hd)) := by
    unfold linksOf
    rw [List.zip_map', List.map_map]
    rfl
  rw [e]
  exact links_hold d rtc _ _ es _ (citeds_holds d count es _ _ (head_holds d count g es hg _ _))

theorem foldlM_holds {γ : Type} (d : Bool) (F : YearNet ι → γ → Except NetErr (YearNet ι)) (ev : γ → List Link) (l : List γ)
    (h : ∀ r ∈ l, ∀ es g, Holds d g es → ∃ g', F g r = .ok g' ∧ Holds d g' (es ++ ev r)) (es : List Link) (g : YearNet ι) (hg : Holds d g es) :
    ∃ g', l.foldlM F g = .ok g' ∧ Holds d g' (es ++ l.flatMap ev) := by
  induction l generalizing g es with
  | nil => exact ⟨g, rfl, by simpa using hg⟩
  | cons a l ih =>
    obtain ⟨g1, h1, h2⟩ := h a (by simp) es g hg
    obtain ⟨g2, h3, h4⟩ := ih (fun r hr => h r (by simp [hr])) _ _ h2
    refine ⟨g2, ?_, ?_⟩
    · rw [List.foldlM_cons, h1]; exact h3
    · rw [List.flatMap_cons, ← List.append_assoc]; exact h4

end Verif.Lemmas.YearDiff
