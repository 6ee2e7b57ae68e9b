import Verif.Model.Cli
import Verif.Spec.Cli
import Verif.Props.GraphDrops

/-! # C80, C81: the dialogues of the command line tool -/
set_option autoImplicit false
set_option linter.unusedSectionVars false
set_option linter.unusedSimpArgs false
namespace Verif.Props.Cli
open Verif.Py Verif.Py.Graph Verif.Model.GraphHelpers Verif.Model.Cli Verif.Spec Verif.Spec.Cli Verif.Props

variable {ν : Type} [DecidableEq ν]

/-- An undirected graph whose weights, where edges have one, are positive numbers. -/
def Plain (g : G ν) : Prop :=
  g.WF ∧ g.directed = false ∧ ∀ u v a, g.edge? u v = some a → 1 ≤ weight "weight" a

theorem dropNodes_keep (x : Int) (g : G ν) (hg : g.WF) (hok : (dropNodesByDegree (some x) none true "weight" true g).2 = none) :
    (dropNodesByDegree (some x) none true "weight" true g).1.WF ∧
    KeepNodes (fun n => ¬ outDegree (weight "weight") g n < x) g (dropNodesByDegree (some x) none true "weight" true g).1 := by
  obtain ⟨h1, h2, h3⟩ := (C39_dropNodesByDegree_partial (some x) none true "weight" true g hg).2.1 hok
  have hr : ∀ n, InRange (some x) none (outDegree (weight "weight") g n) ↔ ¬ outDegree (weight "weight") g n < x := by
    intro n
    unfold InRange
    simp
  simp only [if_true] at h2 h3
  have e : (fun a => weight "weight" a) = weight "weight" := rfl
  simp only [e, hr] at h2 h3
  refine ⟨?_, ?_, ?_, h3⟩
  · unfold dropNodesByDegree
    split
    · exact hg
    · exact WF_removeNodes hg _
  · unfold dropNodesByDegree
    split <;> rfl
  · intro n a
    have h1 := h1 n
    have h2 := h2 n
    unfold hasNode at h2
    constructor
    · intro h
      rw [h] at h1 h2
      rcases h1 with h1 | h1
      · cases h1
      · exact ⟨h1.symm, (h2.1 rfl).2⟩
    · rintro ⟨h, hx⟩
      rw [h] at h1 h2
      rcases h1 with h1 | h1
      · rw [h1] at h2
        exact absurd (h2.2 ⟨rfl, hx⟩) (by simp)
      · exact h1

theorem sum_nonneg (l : List ν) (f : ν → Int) (h : ∀ m ∈ l, 0 ≤ f m) : 0 ≤ (l.map f).sum := by
  induction l with
  | nil => simp
  | cons b l ih =>
    have := ih (fun m hm => h m (List.mem_cons_of_mem _ hm))
    have := h b List.mem_cons_self
    rw [List.map_cons, List.sum_cons]; omega

theorem sum_pos_iff (l : List ν) (f : ν → Int) (h : ∀ m ∈ l, 0 ≤ f m) : 1 ≤ (l.map f).sum ↔ ∃ m ∈ l, 1 ≤ f m := by
  induction l with
  | nil => simp
  | cons a l ih =>
    have ih := ih (fun m hm => h m (List.mem_cons_of_mem _ hm))
    have h0 := h a List.mem_cons_self
    have hs := sum_nonneg l f (fun m hm => h m (List.mem_cons_of_mem a hm))
    rw [List.map_cons, List.sum_cons, List.exists_mem_cons_iff, ← ih]
    omega

/-- What is needed of the graph for isolated nodes to be found by their degree. -/
def Light (g : G ν) : Prop :=
  (∀ u v, (g.edge? u v).isSome = true → (g.node? v).isSome = true) ∧ ∀ u v a, g.edge? u v = some a → 1 ≤ weight "weight" a

theorem degree_pos (g : G ν) (hg : Light g) (n : ν) : ¬ outDegree (weight "weight") g n < 1 ↔ ∃ m, (g.edge? n m).isSome = true := by
  obtain ⟨hw, hp⟩ := hg
  unfold outDegree
  rw [Int.not_lt, sum_pos_iff]
  · constructor
    · rintro ⟨m, -, hm⟩
      refine ⟨m, ?_⟩
      cases h : g.edge? n m with
      | none => rw [h] at hm; simp at hm
      | some a => rfl
    · rintro ⟨m, hm⟩
      refine ⟨m, ?_, ?_⟩
      · have := hw n m hm
        rw [Dict.mem_keys_iff]; exact this
      · obtain ⟨a, ha⟩ := Option.isSome_iff_exists.1 hm
        rw [ha]
        exact hp n m a ha
  · intro m _
    cases h : g.edge? n m with
    | none => simp
    | some a => have := hp n m a h; show 0 ≤ weight "weight" a; omega

theorem light_keepEdges {p : ν → ν → Attrs → Prop} {g h : G ν} (hg : Light g) (hk : KeepEdges p g h) : Light h := by
  refine ⟨?_, fun u v a e => hg.2 u v a ((hk.2.2 u v a).1 e).1⟩
  intro u v e
  obtain ⟨a, e⟩ := Option.isSome_iff_exists.1 e
  have := hg.1 u v (by rw [((hk.2.2 u v a).1 e).1]; rfl)
  unfold Graph.node? at this ⊢
  rw [hk.2.1]; exact this

theorem light_keepNodes {p : ν → Prop} {g h : G ν} (hg : Light g) (hk : KeepNodes p g h) : Light h := by
  refine ⟨?_, fun u v a e => hg.2 u v a ((hk.2.2 u v a).1 e).1⟩
  intro u v e
  obtain ⟨a, e⟩ := Option.isSome_iff_exists.1 e
  obtain ⟨e, -, hv⟩ := (hk.2.2 u v a).1 e
  obtain ⟨b, hb⟩ := Option.isSome_iff_exists.1 (hg.1 u v (by rw [e]; rfl))
  rw [(hk.2.1 v b).2 ⟨hb, hv⟩]; rfl

theorem keepNodes_congr {p q : ν → Prop} {g h : G ν} (e : ∀ n, p n ↔ q n) (hk : KeepNodes p g h) : KeepNodes q g h := by
  unfold KeepNodes at *
  simp only [← e]
  exact hk

/-- What the filters do, one by one. -/
theorem loops_meant (g : G ν) (hg : g.WF) : (dropEdges none none "weight" false true g).2 = none ∧
    Meant .selfLoops g (dropEdges none none "weight" false true g).1 := by
  have hok : (dropEdges none none "weight" false true g).2 = none := ((C38_raises none none "weight" false true g hg).1).2 (.inl ⟨rfl, rfl⟩)
  obtain ⟨h1, h2, h3⟩ := C38_dropEdges none none "weight" false true g hg hok
  refine ⟨hok, h1, h2, ?_⟩
  intro u v a
  rw [h3]
  simp [InRange]

theorem below_meant (x : Int) (g : G ν) (hg : g.WF) (hok : (dropEdges (some x) none "weight" false false g).2 = none) :
    Meant (.edgesBelow x) g (dropEdges (some x) none "weight" false false g).1 := by
  obtain ⟨h1, h2, h3⟩ := C38_dropEdges (some x) none "weight" false false g hg hok
  have hW := ((C38_raises (some x) none "weight" false false g hg).1).1 hok
  refine ⟨h1, h2, ?_⟩
  intro u v a
  rw [h3]
  constructor
  · rintro ⟨e, -, hr⟩
    refine ⟨e, ?_⟩
    rcases hW with ⟨h, -⟩ | hW
    · cases h
    · rcases hW u v a e (by simp) with ⟨n, hn⟩ | ⟨-, h⟩
      · have := (hr n hn).1 x rfl
        unfold weight
        rw [hn]; simpa using this
      · cases h
  · rintro ⟨e, hr⟩
    refine ⟨e, by simp, ?_⟩
    intro n hn
    unfold weight at hr
    rw [hn] at hr
    exact ⟨by rintro l ⟨⟩; simpa using hr, by simp⟩

def isAbove : Cmd → Bool
  | .edgesAbove _ => true
  | .nodesAbove _ => true
  | _ => false

def cmdOf : Ask → Int → Cmd
  | .minWeight => .edgesBelow
  | .maxWeight => .edgesAbove
  | .minDegree => .nodesBelow
  | .maxDegree => .nodesAbove

def pending : Mode → Option (Int → Cmd)
  | .menu => none
  | .ask a => some (cmdOf a)

theorem answer_done (a : Ask) (x : Int) (g : G ν) (hg : g.WF) (hok : (answer a x g).2 = none) :
    (answer a x g).1.WF ∧ Done (cmdOf a x) g (answer a x g).1 := by
  cases a with
  | minWeight => exact ⟨WF_dropEdges _ _ _ _ _ g hg, below_meant x g hg hok⟩
  | maxWeight => exact ⟨WF_dropEdges _ _ _ _ _ g hg, below_meant x g hg hok⟩
  | minDegree => exact dropNodes_keep x g hg hok
  | maxDegree => exact dropNodes_keep x g hg hok

/-- **C80, exactly.** Whatever is typed, and whatever the graph: when the dialogue ends with the graph, it is the given one with the chosen filters applied
one after the other, where a filter does what `Done` says. That is what the menu says (`Meant`) except for the filters "above" and, for directed graphs or
weights below 1, isolated nodes. -/
theorem C80_exact (num : Str → Option Int) (lines : List Str) (g : G ν) (hg : g.WF)
    (hdone : (getThresholds num .menu g lines).1 = .graph) :
    Chain Done (commands num none lines) g (getThresholds num .menu g lines).2.1 := by
  suffices H : ∀ (m : Mode) (g : G ν), g.WF → (getThresholds num m g lines).1 = .graph →
      Chain Done (commands num (pending m) lines) g (getThresholds num m g lines).2.1 from H .menu g hg hdone
  clear hg hdone g
  induction lines with
  | nil =>
    intro m g _ h
    cases m <;> cases h
  | cons l rest ih =>
    intro m g hg hdone
    cases m with
    | ask a =>
      unfold getThresholds at hdone ⊢
      simp only [pending]
      unfold commands
      cases hn : num l with
      | none =>
        rw [hn] at hdone
        exact ih (.ask a) g hg hdone
      | some x =>
        rw [hn] at hdone
        dsimp only at hdone ⊢
        have hx := answer_done a x g hg
        rcases hans : answer a x g with ⟨g', e⟩
        rw [hans] at hdone hx
        cases e with
        | some e => cases hdone
        | none =>
          obtain ⟨h1, h2⟩ := hx rfl
          exact Chain.cons _ _ _ _ _ h2 (ih .menu g' h1 hdone)
    | menu =>
      unfold getThresholds at hdone ⊢
      simp only [pending]
      unfold commands
      change Chain Done (if l = ['0'] then [] else if l = ['1'] then .isolates :: commands num none rest
        else if l = ['2'] then .selfLoops :: commands num none rest else if l = ['3'] then commands num (some .edgesBelow) rest
        else if l = ['4'] then commands num (some .edgesAbove) rest else if l = ['5'] then commands num (some .nodesBelow) rest
        else if l = ['6'] then commands num (some .nodesAbove) rest else commands num none rest) g _
      by_cases h0 : l = ['0']
      · rw [if_pos h0, if_pos h0]; exact Chain.nil g
      rw [if_neg h0] at hdone ⊢
      rw [if_neg h0]
      by_cases h1 : l = ['1']
      · rw [if_pos h1] at hdone ⊢
        rw [if_pos h1]
        have hx := dropNodes_keep 1 g hg
        rcases hans : dropNodesByDegree (some 1) none true "weight" true g with ⟨g', e⟩
        rw [hans] at hdone hx
        cases e with
        | some e => cases hdone
        | none =>
          obtain ⟨w, h2⟩ := hx rfl
          exact Chain.cons _ _ _ _ _ h2
            (ih .menu g' w hdone)
      rw [if_neg h1] at hdone ⊢
      rw [if_neg h1]
      by_cases h2 : l = ['2']
      · rw [if_pos h2] at hdone ⊢
        rw [if_pos h2]
        have hx := loops_meant g hg
        have hw := WF_dropEdges none none "weight" false true g hg
        rcases hans : dropEdges none none "weight" false true g with ⟨g', e⟩
        rw [hans] at hdone hx hw
        cases e with
        | some e => cases hdone
        | none =>
          exact Chain.cons _ _ _ _ _ hx.2 (ih .menu g' hw hdone)
      rw [if_neg h2] at hdone ⊢
      rw [if_neg h2]
      by_cases h3 : l = ['3']
      · rw [if_pos h3] at hdone ⊢
        rw [if_pos h3]
        exact ih (.ask .minWeight) g hg hdone
      rw [if_neg h3] at hdone ⊢
      rw [if_neg h3]
      by_cases h4 : l = ['4']
      · rw [if_pos h4] at hdone ⊢
        rw [if_pos h4]
        exact ih (.ask .maxWeight) g hg hdone
      rw [if_neg h4] at hdone ⊢
      rw [if_neg h4]
      by_cases h5 : l = ['5']
      · rw [if_pos h5] at hdone ⊢
        rw [if_pos h5]
        exact ih (.ask .minDegree) g hg hdone
      rw [if_neg h5] at hdone ⊢
      rw [if_neg h5]
      by_cases h6 : l = ['6']
      · rw [if_pos h6] at hdone ⊢
        rw [if_pos h6]
        exact ih (.ask .maxDegree) g hg hdone
      rw [if_neg h6] at hdone ⊢
      rw [if_neg h6]
      by_cases h7 : l = ['q']
      · rw [if_pos h7] at hdone; cases hdone
      rw [if_neg h7] at hdone ⊢
      by_cases h8 : l = ['i']
      · rw [if_pos h8] at hdone; cases hdone
      rw [if_neg h8] at hdone ⊢
      exact ih .menu g hg hdone

theorem done_meant (c : Cmd) (g h : G ν) (hd : Done c g h) (ha : isAbove c = false) (hi : c = .isolates → Light g) : Meant c g h := by
  cases c with
  | isolates => exact keepNodes_congr (degree_pos g (hi rfl)) hd
  | edgesAbove x => cases ha
  | nodesAbove x => cases ha
  | selfLoops => exact hd
  | edgesBelow x => exact hd
  | nodesBelow x => exact hd

theorem light_done (c : Cmd) (g h : G ν) (hd : Done c g h) (hg : Light g) : Light h := by
  cases c <;> first | exact light_keepNodes hg hd | exact light_keepEdges hg hd

/-- **C80 (part).** Whatever is typed: when the dialogue ends with the graph, and neither of the two filters "above" was chosen, the graph is the given
one with the chosen filters applied one after the other. Stated for undirected graphs with positive weights. What is missing: the filters "above"
(`C80_above`), and directed graphs (`C80_isolates_directed`). -/
theorem C80_filters_partial (num : Str → Option Int) (lines : List Str) (g : G ν) (hg : Plain g)
    (hdone : (getThresholds num .menu g lines).1 = .graph) (hcmd : ∀ c ∈ commands num none lines, isAbove c = false) :
    Chain Meant (commands num none lines) g (getThresholds num .menu g lines).2.1 := by
  have H : ∀ (cs : List Cmd) (g k : G ν), Light g → (∀ c ∈ cs, isAbove c = false) → Chain Done cs g k → Chain Meant cs g k := by
    intro cs g k hg hc h
    induction h with
    | nil g => exact Chain.nil g
    | cons c cs g h k hd _ ih =>
      exact Chain.cons _ _ _ _ _ (done_meant c g h hd (hc _ List.mem_cons_self) (fun _ => hg))
        (ih (light_done c g h hd hg) (fun c' h' => hc c' (List.mem_cons_of_mem _ h')))
  exact H _ _ _ ⟨fun u v e => (hg.1.ends_of_edge? e).2, hg.2.2⟩ hcmd (C80_exact num lines g hg.1 hdone)

/-- **C80 (part), for every graph**, directed or not and with any weights, when isolated nodes are not to be dropped either. (The degree of a node of a
directed graph is taken to be the weight of the edges that leave it.) -/
theorem C80_any_graph_partial (num : Str → Option Int) (lines : List Str) (g : G ν) (hg : g.WF)
    (hdone : (getThresholds num .menu g lines).1 = .graph) (hcmd : ∀ c ∈ commands num none lines, isAbove c = false ∧ c ≠ .isolates) :
    Chain Meant (commands num none lines) g (getThresholds num .menu g lines).2.1 := by
  have H : ∀ (cs : List Cmd) (g k : G ν), (∀ c ∈ cs, isAbove c = false ∧ c ≠ .isolates) → Chain Done cs g k → Chain Meant cs g k := by
    intro cs g k hc h
    induction h with
    | nil g => exact Chain.nil g
    | cons c cs g h k hd _ ih =>
      exact Chain.cons _ _ _ _ _ (done_meant c g h hd (hc _ List.mem_cons_self).1 (fun e => absurd e (hc _ List.mem_cons_self).2))
        (ih (fun c' h' => hc c' (List.mem_cons_of_mem _ h')))
  exact H _ _ _ hcmd (C80_exact num lines g hg hdone)

/-- **C80.** When every edge has a number as its weight no dialogue ends with an exception of a filter. -/
theorem C80_no_filter_raises (num : Str → Option Int) (lines : List Str) (g : G ν) (hg : g.WF)
    (hw : ∀ u v a, g.edge? u v = some a → ∃ x, a.get? "weight" = some (.num x)) (e : GErr) :
    (getThresholds num .menu g lines).1 ≠ .raised e := by
  suffices H : ∀ (m : Mode) (g : G ν), g.WF → (∀ u v a, g.edge? u v = some a → ∃ x, a.get? "weight" = some (.num x)) →
      (getThresholds num m g lines).1 ≠ .raised e from H .menu g hg hw
  clear hg hw g
  have kE : ∀ {p : ν → ν → Attrs → Prop} {g h : G ν}, KeepEdges p g h → (∀ u v a, g.edge? u v = some a → ∃ x, a.get? "weight" = some (.num x)) →
      ∀ u v a, h.edge? u v = some a → ∃ x, a.get? "weight" = some (.num x) := fun hk hw u v a e => hw u v a ((hk.2.2 u v a).1 e).1
  have kN : ∀ {p : ν → Prop} {g h : G ν}, KeepNodes p g h → (∀ u v a, g.edge? u v = some a → ∃ x, a.get? "weight" = some (.num x)) →
      ∀ u v a, h.edge? u v = some a → ∃ x, a.get? "weight" = some (.num x) := fun hk hw u v a e => hw u v a ((hk.2.2 u v a).1 e).1
  have okE : ∀ x (g : G ν), g.WF → (∀ u v a, g.edge? u v = some a → ∃ x, a.get? "weight" = some (.num x)) →
      (dropEdges (some x) none "weight" false false g).2 = none := fun x g hg hw =>
    ((C38_raises (some x) none "weight" false false g hg).1).2 (.inr (fun u v a e _ => .inl (hw u v a e)))
  have okN : ∀ x (g : G ν), g.WF → (∀ u v a, g.edge? u v = some a → ∃ x, a.get? "weight" = some (.num x)) →
      (dropNodesByDegree (some x) none true "weight" true g).2 = none := fun x g hg hw =>
    (C39_dropNodesByDegree_partial (some x) none true "weight" true g hg).1.2 (fun _ u v a e => .inl (hw u v a e))
  induction lines with
  | nil => intro m g _ _ h; cases m <;> cases h
  | cons l rest ih =>
    intro m g hg hw
    cases m with
    | ask a =>
      unfold getThresholds
      cases hn : num l with
      | none => exact ih (.ask a) g hg hw
      | some x =>
        dsimp only
        have hok : (answer a x g).2 = none := by
          cases a
          · exact okE x g hg hw
          · exact okE x g hg hw
          · exact okN x g hg hw
          · exact okN x g hg hw
        obtain ⟨w, hd⟩ := answer_done a x g hg hok
        have hw' : ∀ u v b, (answer a x g).1.edge? u v = some b → ∃ x, b.get? "weight" = some (.num x) := by
          cases a
          · exact kE hd hw
          · exact kE hd hw
          · exact kN hd hw
          · exact kN hd hw
        rcases hans : answer a x g with ⟨g', e'⟩
        rw [hans] at hok w hw'
        dsimp only at hok w hw'
        subst hok
        exact ih .menu g' w hw'
    | menu =>
      unfold getThresholds
      by_cases h0 : l = ['0']
      · rw [if_pos h0]; simp
      rw [if_neg h0]
      by_cases h1 : l = ['1']
      · rw [if_pos h1]
        have hok := okN 1 g hg hw
        obtain ⟨w, hd⟩ := dropNodes_keep 1 g hg hok
        have hw' := kN hd hw
        rcases hans : dropNodesByDegree (some 1) none true "weight" true g with ⟨g', e'⟩
        rw [hans] at hok w hw'
        dsimp only at hok w hw'
        subst hok
        exact ih .menu g' w hw'
      rw [if_neg h1]
      by_cases h2 : l = ['2']
      · rw [if_pos h2]
        obtain ⟨hok, hd⟩ := loops_meant g hg
        have w := WF_dropEdges none none "weight" false true g hg
        have hw' := kE hd hw
        rcases hans : dropEdges none none "weight" false true g with ⟨g', e'⟩
        rw [hans] at hok w hw'
        dsimp only at hok w hw'
        subst hok
        exact ih .menu g' w hw'
      rw [if_neg h2]
      repeat (first | (split; · first | exact ih _ g hg hw | simp))
      exact ih .menu g hg hw

/-- **C80 is false of the code** for "Remove edges above some weight" and "Remove nodes above some degree": they do what the filters "below" do. -/
theorem C80_above (x : Int) (g : G ν) :
    answer .maxWeight x g = answer .minWeight x g ∧ answer .maxDegree x g = answer .minDegree x g := ⟨rfl, rfl⟩

/-- So, of two edges, the heavy one is left. -/
theorem C80_above_witness :
    let g : G Nat := ⟨false, [(1, []), (2, []), (3, [])], [((1, 2), [("weight", .num 1)]), ((2, 3), [("weight", .num 9)])]⟩
    let num : Str → Option Int := fun l => if l = ['5'] then some 5 else none
    commands num none ["4".toList, "5".toList, "0".toList] = [.edgesAbove 5] ∧
    (getThresholds num .menu g ["4".toList, "5".toList, "0".toList]).1 = .graph ∧
    (getThresholds num .menu g ["4".toList, "5".toList, "0".toList]).2.1.edges = [((2, 3), [("weight", .num 9)])] ∧
    ¬ Meant (.edgesAbove 5) g (getThresholds num .menu g ["4".toList, "5".toList, "0".toList]).2.1 := by
  refine ⟨by decide, by decide, by decide, ?_⟩
  rintro ⟨-, -, h⟩
  have := ((h 2 3 [("weight", .num 9)]).1 (by decide)).2
  exact this (by decide)

/-- **C80 is false of the code** for directed graphs, such as citation networks: "Drop isolates" drops every node that no edge leaves, also when edges
lead to it. -/
theorem C80_isolates_directed (g : G ν) (hg : g.WF) (hok : (dropNodesByDegree (some 1) none true "weight" true g).2 = none) (n : ν)
    (hn : ∀ m, g.edge? n m = none) : (dropNodesByDegree (some 1) none true "weight" true g).1.node? n = none := by
  obtain ⟨-, -, h, -⟩ := dropNodes_keep 1 g hg hok
  cases e : (dropNodesByDegree (some 1) none true "weight" true g).1.node? n with
  | none => rfl
  | some a =>
    exfalso
    apply ((h n a).1 e).2
    unfold outDegree
    simp only [hn]
    have : ∀ l : List ν, (l.map (fun _ => (0 : Int))).sum = 0 := by
      intro l; induction l with
      | nil => rfl
      | cons a l ih => rw [List.map_cons, List.sum_cons, ih]; rfl
    rw [this]; decide

theorem C80_isolates_directed_witness :
    let g : G Nat := ⟨true, [(1, []), (2, []), (3, [])], [((1, 2), []), ((1, 3), [])]⟩
    (getThresholds (fun _ => none) .menu g ["1".toList, "0".toList]) = (.graph, ⟨true, [(1, [])], []⟩, []) := by decide

/-- Leaving the console, opened with `i`, raises. -/
theorem C80_console (num : Str → Option Int) (g : G ν) (rest : List Str) : getThresholds num .menu g (['i'] :: rest) = (.typeError, g, rest) := rfl

/-! ## A dialogue -/

def g1 : G Nat := ⟨false, [(1, []), (2, []), (3, []), (4, [])], [((1, 2), [("weight", .num 1)]), ((2, 3), [("weight", .num 9)]), ((3, 3), [("weight", .num 9)])]⟩
def num1 : Str → Option Int := fun l => if l = ['5'] then some 5 else none
def lines1 : List Str := ["2".toList, "what".toList, "3".toList, "five".toList, "5".toList, "1".toList, "0".toList, "x".toList]

example : commands num1 none lines1 = [.selfLoops, .edgesBelow 5, .isolates] := by decide
example : getThresholds num1 .menu g1 lines1 = (.graph, ⟨false, [(2, []), (3, [])], [((2, 3), [("weight", .num 9)])]⟩, ["x".toList]) := by decide
example : ∀ c ∈ commands num1 none lines1, isAbove c = false := by decide
example : Plain g1 := by
  refine ⟨⟨by decide, by decide, by decide⟩, rfl, ?_⟩
  intro u v a h
  obtain ⟨e, he, -, rfl⟩ := (edge?_eq_some_iff (g := g1) ⟨by decide, by decide, by decide⟩ u v a).1 h
  clear h
  revert e
  decide

/-! ## C81: names of output files -/

/-- The lines from `lines` to `rest`, exclusive. -/
def Read (lines read rest : List Str) : Prop := lines = read ++ rest

/-- A line that agrees to overwriting: empty, or `y` in either case. -/
def Agrees (upper : Str → Str) (l : Str) : Prop := upper l = ['Y'] ∨ upper l = []

/-- The name typed last was `s` without the suffix, and after lines that are neither yes nor no the last line read agrees. -/
def Confirmed (upper : Str → Str) (suffix s : Str) (read : List Str) : Prop :=
  ∃ pre nm junk ans, read = pre ++ nm :: (junk ++ [ans]) ∧ nm ++ suffix = s ∧ Agrees upper ans ∧
    ∀ j ∈ junk, ¬ Agrees upper j ∧ upper j ≠ ['N']

theorem yes_true (upper : Str → Str) (l : Str) : yes? upper l = some true ↔ Agrees upper l := by
  unfold yes? Agrees
  split
  · rename_i h; simp [h]
  · rename_i h; split <;> simp [h]

theorem yes_none (upper : Str → Str) (l : Str) : yes? upper l = none ↔ ¬ Agrees upper l ∧ upper l ≠ ['N'] := by
  unfold yes? Agrees
  split
  · rename_i h; simp [h]
  · rename_i h
    split
    · rename_i h'; simp [h']
    · rename_i h'; simp [h, h']

theorem confirmed_pre {upper : Str → Str} {suffix s : Str} {read : List Str} (pre : List Str) (h : Confirmed upper suffix s read) :
    Confirmed upper suffix s (pre ++ read) := by
  obtain ⟨p, nm, junk, ans, rfl, h2, h3, h4⟩ := h
  exact ⟨pre ++ p, nm, junk, ans, by simp, h2, h3, h4⟩

theorem askName_spec (upper : Str → Str) (there : Str → Bool) (suffix : Str) (lines : List Str) : ∀ (m : NMode),
    ∀ (s : Str) (rest : List Str), askName upper there suffix m true lines = some (s, rest) →
    match m with
    | .name => s ≠ [] ∧ ∃ read, Read lines read rest ∧ (∃ nm ∈ read, nm ++ suffix = s) ∧ (there s = true → Confirmed upper suffix s read)
    | .confirm t => t ≠ [] → s ≠ [] ∧ ((s = t ∧ ∃ junk ans, Read lines (junk ++ [ans]) rest ∧ Agrees upper ans ∧ ∀ j ∈ junk, ¬ Agrees upper j ∧ upper j ≠ ['N']) ∨
        ∃ read, Read lines read rest ∧ (∃ nm ∈ read, nm ++ suffix = s) ∧ (there s = true → Confirmed upper suffix s read)) := by
  induction lines with
  | nil => intro m s rest h; cases m <;> cases h
  | cons l lines ih =>
    intro m s rest h
    cases m with
    | name =>
      unfold askName at h
      dsimp only
      by_cases h0 : l ++ suffix = []
      · rw [if_pos h0] at h
        obtain ⟨h1, read, h2, ⟨nm, hn, hns⟩, h4⟩ := ih .name s rest h
        exact ⟨h1, l :: read, by simp [Read] at h2 ⊢; exact h2, ⟨nm, by simp [hn], hns⟩, fun ht => confirmed_pre [l] (h4 ht)⟩
      · rw [if_neg h0] at h
        by_cases h1 : (there (l ++ suffix) && true) = true
        · rw [if_pos h1] at h
          obtain ⟨h2, h3⟩ := ih (.confirm (l ++ suffix)) s rest h h0
          refine ⟨h2, ?_⟩
          rcases h3 with ⟨rfl, junk, ans, hr, ha, hj⟩ | ⟨read, hr, ⟨nm, hn, hns⟩, hc⟩
          · refine ⟨l :: (junk ++ [ans]), ?_, ⟨l, by simp, rfl⟩, fun _ => ⟨[], l, junk, ans, rfl, rfl, ha, hj⟩⟩
            unfold Read at hr ⊢
            rw [hr]; simp
          · refine ⟨l :: read, ?_, ⟨nm, by simp [hn], hns⟩, fun ht => confirmed_pre [l] (hc ht)⟩
            unfold Read at hr ⊢
            rw [hr]; simp
        · rw [if_neg h1] at h
          obtain ⟨rfl, rfl⟩ := Prod.mk.inj (Option.some.inj h)
          refine ⟨h0, [l], rfl, ⟨l, by simp, rfl⟩, ?_⟩
          intro ht
          rw [ht] at h1; exact absurd rfl h1
    | confirm t =>
      intro ht
      unfold askName at h
      cases hy : yes? upper l with
      | none =>
        rw [hy] at h
        obtain ⟨h2, h3⟩ := ih (.confirm t) s rest h ht
        refine ⟨h2, ?_⟩
        rcases h3 with ⟨rfl, junk, ans, hr, ha, hj⟩ | ⟨read, hr, ⟨nm, hn, hns⟩, hc⟩
        · refine .inl ⟨rfl, l :: junk, ans, ?_, ha, ?_⟩
          · unfold Read at hr ⊢
            rw [hr]; simp
          · intro j hj'
            rcases List.mem_cons.1 hj' with rfl | hj'
            · exact (yes_none upper _).1 hy
            · exact hj j hj'
        · refine .inr ⟨l :: read, ?_, ⟨nm, by simp [hn], hns⟩, fun ht => confirmed_pre [l] (hc ht)⟩
          unfold Read at hr ⊢
          rw [hr]; simp
      | some b =>
        rw [hy] at h
        cases b with
        | true =>
          obtain ⟨rfl, rfl⟩ := Prod.mk.inj (Option.some.inj h)
          exact ⟨ht, .inl ⟨rfl, [], l, rfl, (yes_true upper l).1 hy, by simp⟩⟩
        | false =>
          obtain ⟨h1, read, hr, ⟨nm, hn, hns⟩, hc⟩ := ih .name s rest h
          refine ⟨h1, .inr ⟨l :: read, ?_, ⟨nm, by simp [hn], hns⟩, fun ht => confirmed_pre [l] (hc ht)⟩⟩
          unfold Read at hr ⊢
          rw [hr]; simp

/-- **C81 (part).** When no `--name` is given, the name of an output file is one that was typed, with the suffix, and if there is a file of that name
the user has agreed to overwrite it: the last name typed is this one and the last line is a yes. -/
theorem C81_output_name_partial (upper : Str → Str) (there : Str → Bool) (suffix : Str) (lines : List Str) (s : Str) (rest : List Str)
    (h : getOutputName upper there [] suffix true lines = some (s, rest)) :
    s ≠ [] ∧ ∃ read, Read lines read rest ∧ (∃ nm ∈ read, nm ++ suffix = s) ∧ (there s = true → Confirmed upper suffix s read) :=
  askName_spec upper there suffix lines .name s rest h

/-- **C81 is false of the code** when `--name` is given: existing files are overwritten without a question. -/
theorem C81_name_option (upper : Str → Str) (there clash : Str → Bool) (name suffix : Str) (hn : name ≠ []) (checking : Bool) (lines : List Str) :
    getOutputName upper there name suffix checking lines = some (name ++ suffix, lines) ∧
    writeGraphAs upper there clash name lines = some (name, clash name, lines) := by
  unfold getOutputName writeGraphAs
  rw [if_pos hn, if_pos hn]
  exact ⟨rfl, rfl⟩

theorem yes_not_none (upper : Str → Str) (l : Str) (h : yes? upper l ≠ some false) : upper l ≠ ['N'] := by
  intro hN
  apply h
  unfold yes?
  rw [hN]; simp

/-- The lines read after the name `s`: no answer is a no, and to overwrite the last is a yes. -/
def Settled (upper : Str → Str) (o : Bool) (mid : List Str) : Prop :=
  (∀ l ∈ mid, upper l ≠ ['N']) ∧ (o = true → ∃ m ans, mid = m ++ [ans] ∧ Agrees upper ans)

theorem settled_cons {upper : Str → Str} {o : Bool} {mid : List Str} {l : Str} (hl : upper l ≠ ['N']) (h : Settled upper o mid) :
    Settled upper o (l :: mid) := by
  refine ⟨?_, fun ho => ?_⟩
  · intro x hx
    rcases List.mem_cons.1 hx with rfl | hx
    · exact hl
    · exact h.1 x hx
  · obtain ⟨m, ans, rfl, ha⟩ := h.2 ho
    exact ⟨l :: m, ans, rfl, ha⟩

def asking : GMode → Option Str
  | .name => none
  | .confirm s => some s
  | .over s => some s

theorem askGraph_spec (upper : Str → Str) (there clash : Str → Bool) (lines : List Str) : ∀ (m : GMode) (ck : Bool),
    (∀ t, asking m = some t → t ≠ []) →
    ∀ (s : Str) (o : Bool) (rest : List Str), askGraph upper there clash m ck lines = some (s, o, rest) →
    s ≠ [] ∧ (o = false → clash s = false) ∧
    ((∃ pre mid, lines = pre ++ s :: (mid ++ rest) ∧ Settled upper o mid) ∨
      (asking m = some s ∧ ∃ mid, lines = mid ++ rest ∧ Settled upper o mid)) := by
  have push : ∀ (l : Str) (lines rest : List Str) (s : Str) (o : Bool) (P Q : Prop),
      (∃ pre mid, lines = pre ++ s :: (mid ++ rest) ∧ Settled upper o mid) →
      (∃ pre mid, l :: lines = pre ++ s :: (mid ++ rest) ∧ Settled upper o mid) ∨ (P ∧ Q) := by
    rintro l lines rest s o P Q ⟨pre, mid, e, h⟩
    exact .inl ⟨l :: pre, mid, by rw [e]; rfl, h⟩
  induction lines with
  | nil => intro m ck _ s o rest h; cases m <;> cases h
  | cons l lines ih =>
    intro m ck hm s o rest h
    cases m with
    | name =>
      unfold askGraph at h
      by_cases h0 : l = []
      · rw [if_pos h0] at h
        obtain ⟨g1, g2, g3 | ⟨g3, -⟩⟩ := ih .name true (by simp [asking]) s o rest h
        · exact ⟨g1, g2, push _ _ _ _ _ _ _ g3⟩
        · cases g3
      · rw [if_neg h0] at h
        have step : ∀ m' ck', asking m' = some l → askGraph upper there clash m' ck' lines = some (s, o, rest) →
            s ≠ [] ∧ (o = false → clash s = false) ∧ ((∃ pre mid, l :: lines = pre ++ s :: (mid ++ rest) ∧ Settled upper o mid) ∨
              (asking .name = some s ∧ ∃ mid, l :: lines = mid ++ rest ∧ Settled upper o mid)) := by
          intro m' ck' hm' h
          obtain ⟨g1, g2, g3 | ⟨g3, mid, e, g4⟩⟩ := ih m' ck' (by rw [hm']; rintro t ⟨⟩; exact h0) s o rest h
          · exact ⟨g1, g2, push _ _ _ _ _ _ _ g3⟩
          · rw [hm'] at g3
            obtain rfl := Option.some.inj g3
            exact ⟨g1, g2, .inl ⟨[], mid, by rw [e]; rfl, g4⟩⟩
        by_cases h1 : (there l && ck) = true
        · rw [if_pos h1] at h
          exact step _ _ rfl h
        · rw [if_neg h1] at h
          by_cases h2 : clash l = true
          · rw [if_pos h2] at h
            exact step _ _ rfl h
          · rw [if_neg h2] at h
            obtain ⟨rfl, h3⟩ := Prod.mk.inj (Option.some.inj h)
            obtain ⟨rfl, rfl⟩ := Prod.mk.inj h3
            exact ⟨h0, fun _ => by simpa using h2, .inl ⟨[], [], rfl, by simp [Settled]⟩⟩
    | confirm t =>
      unfold askGraph at h
      have ht := hm t rfl
      have step : ∀ m' ck', asking m' = some t → yes? upper l ≠ some false → askGraph upper there clash m' ck' lines = some (s, o, rest) →
          s ≠ [] ∧ (o = false → clash s = false) ∧ ((∃ pre mid, l :: lines = pre ++ s :: (mid ++ rest) ∧ Settled upper o mid) ∨
            (asking (.confirm t) = some s ∧ ∃ mid, l :: lines = mid ++ rest ∧ Settled upper o mid)) := by
        intro m' ck' hm' hl h
        obtain ⟨g1, g2, g3 | ⟨g3, mid, e, g4⟩⟩ := ih m' ck' (by rw [hm']; rintro t ⟨⟩; exact ht) s o rest h
        · exact ⟨g1, g2, push _ _ _ _ _ _ _ g3⟩
        · rw [hm'] at g3
          exact ⟨g1, g2, .inr ⟨g3, l :: mid, by rw [e]; rfl, settled_cons (yes_not_none _ _ hl) g4⟩⟩
      cases hy : yes? upper l with
      | none =>
        rw [hy] at h
        exact step (.confirm t) ck rfl (by rw [hy]; simp) h
      | some b =>
        rw [hy] at h
        cases b with
        | false =>
          obtain ⟨g1, g2, g3 | ⟨g3, -⟩⟩ := ih .name true (by simp [asking]) s o rest h
          · exact ⟨g1, g2, push _ _ _ _ _ _ _ g3⟩
          · cases g3
        | true =>
          dsimp only at h
          by_cases h2 : clash t = true
          · rw [if_pos h2] at h
            exact step (.over t) false rfl (by rw [hy]; simp) h
          · rw [if_neg h2] at h
            obtain ⟨rfl, h3⟩ := Prod.mk.inj (Option.some.inj h)
            obtain ⟨rfl, rfl⟩ := Prod.mk.inj h3
            exact ⟨ht, fun _ => by simpa using h2, .inr ⟨rfl, [l], rfl, settled_cons (yes_not_none _ _ (by rw [hy]; simp)) (by simp [Settled])⟩⟩
    | over t =>
      unfold askGraph at h
      have ht := hm t rfl
      cases hy : yes? upper l with
      | none =>
        rw [hy] at h
        obtain ⟨g1, g2, g3 | ⟨g3, mid, e, g4⟩⟩ := ih (.over t) false hm s o rest h
        · exact ⟨g1, g2, push _ _ _ _ _ _ _ g3⟩
        · exact ⟨g1, g2, .inr ⟨g3, l :: mid, by rw [e]; rfl, settled_cons (yes_not_none _ _ (by rw [hy]; simp)) g4⟩⟩
      | some b =>
        rw [hy] at h
        cases b with
        | false =>
          obtain ⟨g1, g2, g3 | ⟨g3, -⟩⟩ := ih .name false (by simp [asking]) s o rest h
          · exact ⟨g1, g2, push _ _ _ _ _ _ _ g3⟩
          · cases g3
        | true =>
          obtain ⟨rfl, h3⟩ := Prod.mk.inj (Option.some.inj h)
          obtain ⟨rfl, rfl⟩ := Prod.mk.inj h3
          refine ⟨ht, by simp, .inr ⟨rfl, [l], rfl, ?_, fun _ => ⟨[], l, rfl, (yes_true upper l).1 hy⟩⟩⟩
          intro x hx
          obtain rfl := List.mem_singleton.1 hx
          exact yes_not_none _ _ (by rw [hy]; simp)

/-- **C81 (part).** The name of the two files of a graph is one that was typed, and no question about it was answered with no. They are only written over existing
ones when the last line read is a yes. -/
theorem C81_graph_name_partial (upper : Str → Str) (there clash : Str → Bool) (lines : List Str) (s : Str) (o : Bool) (rest : List Str)
    (h : writeGraphAs upper there clash [] lines = some (s, o, rest)) :
    s ≠ [] ∧ (o = false → clash s = false) ∧
    ∃ pre mid, lines = pre ++ s :: (mid ++ rest) ∧ (∀ l ∈ mid, upper l ≠ ['N']) ∧ (o = true → ∃ m ans, mid = m ++ [ans] ∧ Agrees upper ans) := by
  obtain ⟨h1, h2, h3 | ⟨h3, -⟩⟩ := askGraph_spec upper there clash lines .name false (by simp [asking]) s o rest h
  · exact ⟨h1, h2, h3⟩
  · cases h3

/-- An empty line is accepted as a name when there is a suffix: the file is then called `.csv`. -/
theorem C81_empty_name (upper : Str → Str) (rest : List Str) :
    getOutputName upper (fun _ => false) [] ".csv".toList true ([] :: rest) = some (".csv".toList, rest) := rfl

def up1 : Str → Str := fun l => l.map Char.toUpper
example : getOutputName up1 (fun s => s = "a.csv".toList) [] ".csv".toList true ["a".toList, "hm".toList, "n".toList, "a".toList, "y".toList, "z".toList] =
    some ("a.csv".toList, ["z".toList]) := by decide +kernel
example : writeGraphAs up1 (fun _ => false) (fun s => s = "a".toList) [] ["a".toList, "n".toList, [], "a".toList, "?".toList, "y".toList] =
    some ("a".toList, true, []) := by decide +kernel

end Verif.Props.Cli
