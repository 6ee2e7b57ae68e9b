import Verif.Lemmas.ProQuestPipeline
import Verif.Props.Pipeline

/-! # C111: from a ProQuest file to networks and tables -/
set_option autoImplicit false
set_option linter.unusedSimpArgs false
namespace Verif.Props.ProQuestPipeline
open Verif.Py Verif.Model.OtherFields Verif.Model.RecordAccess Verif.Model.ProQuestPipeline Verif.Spec.ProQuestPipeline Verif.Spec
  Verif.Lemmas.ProQuestPipeline Verif.Props.Pipeline Verif.Model.Series
open Verif.Model.ProQuest hiding separator
open Verif.Spec.ProQuest (separator)

section
variable {W : World} {order : List Model.ProQuest.Rec → List Model.ProQuest.Rec} (before : Model.ProQuest.Rec → List (Op String QVal)) {lines : List Str}
  {papers : List Paper}

theorem sum_order (ho : ∀ rs, (order rs).Perm rs) (f : Model.ProQuest.Rec → Nat) :
    ((order (papers.map mkRec)).map f).sum = (papers.map (fun p => f (mkRec p))).sum := by
  rw [((ho (papers.map mkRec)).map f).sum_nat, List.map_map]; rfl

theorem of_order (ho : ∀ rs, (order rs).Perm rs) {r : Model.ProQuest.Rec} (hr : r ∈ order (papers.map mkRec)) : ∃ p ∈ papers, r = mkRec p := by
  obtain ⟨p, hp, rfl⟩ := List.mem_map.1 ((ho _).mem_iff.1 hr)
  exact ⟨p, hp, rfl⟩

/-- The collection holds one record for each paper, with its number. A label of one line gives that line and a label of a list gives what is listed, also under the
common names, whatever was read before; another label gives its lines. -/
theorem C111_reading (ho : ∀ rs, (order rs).Perm rs) (hf : FileOk W.ws W.toInt lines papers) : ∃ (rs : List Model.ProQuest.Rec) (of : Model.ProQuest.Rec → Paper),
    records W order lines.flatten = some rs ∧ (rs.map of).Perm papers ∧ ∀ r ∈ rs,
      r.id = "PROQUEST:".toList ++ (firstOf (of r) "ProQuest document ID").getD [] ∧
      (∀ c ∈ oneLine, ∀ k, NameOf c k → value W before k r = .ok ((firstOf (of r) c).map .text)) ∧
      (∀ c sep k l, (c, sep) ∈ listLabels → NameOf c k → Lists sep (of r) c l → value W before k r = .ok (if l = [] then none else some (.texts l))) ∧
      ∀ c k, c ∉ madeNames → c ∉ oneLine → c ∉ ["Subject", "Identifier / keyword", "Classification"] → NameOf c k →
        value W before k r = .ok (((of r).get? c.toList).map .texts) := by
  refine ⟨_, Model.ProQuest.Rec.fields, records_eq order hf, ?_, ?_⟩
  · have := (ho (papers.map mkRec)).map Model.ProQuest.Rec.fields
    rw [List.map_map] at this
    refine this.trans (List.Perm.of_eq ?_)
    conv => rhs; rw [← List.map_id papers]
    exact List.map_congr_left (fun p _ => fields_of p)
  · intro r hr
    obtain ⟨p, hp, rfl⟩ := of_order ho hr
    rw [fields_of]
    refine ⟨(rec_of hf hp).2, fun c hc k hk => value_text W before (hf.labels p hp) (filled hf p hp) c k hc hk,
      fun c sep k l hc hk hl => value_list W before (hf.labels p hp) c sep k hc hk l hl, ?_⟩
    intro c k hc h1 h2 hk
    rw [value_eq W before (hf.labels p hp) c k hc hk]
    unfold direct
    cases hg : p.get? c.toList with
    | none => rfl
    | some l =>
      have hv : proQuestValue c.toList l = .ok (.texts l) := by
        unfold proQuestValue
        have inj : ∀ s : String, c ≠ s → c.toList ≠ s.toList := fun s hs e => hs (String.toList_inj.1 e)
        have h3 : c.toList ∉ singleLineEntries := by
          intro hm
          have : singleLineEntries = oneLine.map String.toList := by decide +kernel
          rw [this] at hm
          obtain ⟨d, hd, e⟩ := List.mem_map.1 hm
          exact h1 (by rw [← String.toList_inj.1 e]; exact hd)
        simp only [List.mem_cons, List.not_mem_nil, or_false, not_or] at h2
        rw [if_neg h3, if_neg (inj _ h2.2.2), if_neg (inj _ h2.2.1), if_neg (inj _ h2.1)]
      simp only [cls, hv]
      rfl

/-- **C111, values ranked.** `rankedSeries` of a ProQuest file under any name of a label: each value once, with the number of times the papers have it, in the order of
these numbers. For `'year'` and `'authorsShort'` this counts the papers of each year and of each author. -/
theorem C111_ranked (ho : ∀ rs, (order rs).Perm rs) (hf : FileOk W.ws W.toInt lines papers) (c k : String) (hk : NameOf c k)
    (items : Paper → List Str) (hi : ∀ p ∈ papers, Values p c (items p)) (gf : Bool) :
    ∃ l : List (Str × Nat), ranked W before order k true false gf false none lines.flatten =
        some (.ok (.ok (.pairs (l.map (fun e => (QVal.text e.1, e.2)))))) ∧ (l.map Prod.fst).Nodup ∧
      (∀ a n, (a, n) ∈ l ↔ n = (papers.map (fun p => (items p).count a)).sum ∧ 0 < n) ∧
      (gf = true → l.Pairwise (fun a b => b.2 ≤ a.2)) ∧ (gf = false → l.Pairwise (fun a b => a.2 ≤ b.2)) := by
  classical
  let val : Model.ProQuest.Rec → Option QVal := fun r => match value W before k r with | .ok o => o | .error _ => none
  have hval : ∀ p ∈ papers, value W before k (mkRec p) = .ok (val (mkRec p)) ∧ vals ((val (mkRec p)).map fieldVal) = (items p).map .text := by
    intro p hp
    obtain ⟨o, h1, h2⟩ := value_values W before (hf.labels p hp) (filled hf p hp) c k hk _ (hi p hp)
    simp only [val, h1]
    exact ⟨trivial, h2⟩
  have hm : (order (papers.map mkRec)).mapM (value W before k) = .ok ((order (papers.map mkRec)).map val) := by
    apply Lemmas.Pipeline.mapM_ok
    intro r hr
    obtain ⟨p, hp, rfl⟩ := of_order ho hr
    exact (hval p hp).1
  obtain ⟨L, h1, ⟨h2, h3⟩, h4, h5⟩ := Verif.Props.C09_counts (fun v : Option QVal => v.map fieldVal) ((order (papers.map mkRec)).map val) gf none
  have hocc : ∀ v n, (v, n) ∈ L ↔ n = (papers.map (fun p => ((items p).map QVal.text).count v)).sum ∧ 0 < n := by
    intro v n
    rw [h3 v n]
    unfold occurrences
    rw [List.map_map]
    have := sum_order (papers := papers) ho (fun r => (vals ((val r).map fieldVal)).count v)
    rw [List.map_congr_left (g := fun p => ((items p).map QVal.text).count v) (fun p hp => by rw [(hval p hp).2])] at this
    rw [← this]
    simp [Permitted, Function.comp_def]
  have inj : ∀ a b : Str, QVal.text a = .text b → a = b := fun a b e => by injection e
  obtain ⟨l, hl, e2, e3, e4, e5⟩ := retype (f := QVal.text) inj L h2 (fun v n hv => by
    obtain ⟨rfl, h0⟩ := (hocc v n).1 hv
    obtain ⟨p, _, hc⟩ := exists_pos h0
    obtain ⟨s, _, rfl⟩ := List.mem_map.1 (List.count_pos_iff.1 hc)
    exact ⟨s, rfl⟩)
  subst hl
  refine ⟨l, ?_, e2, fun a n => ?_, fun g => e4 (h4 g), fun g => e5 (h5 g)⟩
  · unfold ranked
    rw [records_eq order hf]
    simp only [Option.map_some]
    rw [hm]
    exact congrArg (fun x => some (Except.ok x)) h1
  · rw [← e3, hocc]
    have : ∀ p : Paper, ((items p).map QVal.text).count (.text a) = (items p).count a := fun p => List.count_map_of_injective _ QVal.text inj _
    simp only [this]

/-- **C111, subjects.** The network of the subjects, or of the keywords, of a ProQuest file (or of another label): two are joined as often as a paper has both, and each
counts the papers that have it. -/
theorem C111_terms (ho : ∀ rs, (order rs).Perm rs) (hf : FileOk W.ws W.toInt lines papers) (c k : String) (hk : NameOf c k)
    (items : Paper → List Str) (hi : ∀ p ∈ papers, Values p c (items p)) (nodeCount edgeWeight : Bool) :
    ∃ g, oneMode W before order k nodeCount edgeWeight lines.flatten = some (.ok g) ∧
      (∀ a b, g.edge? a b = edgeFor edgeWeight (papers.map (fun p => pairsShared (items p) a b)).sum) ∧
      ∀ a n, n = (papers.map (fun p => (items p).count a)).sum → g.node? a = if n = 0 then none else some ⟨if nodeCount then some n else none, none⟩ := by
  let val : Model.ProQuest.Rec → Option QVal := fun r => match value W before k r with | .ok o => o | .error _ => none
  have hval : ∀ p ∈ papers, value W before k (mkRec p) = .ok (val (mkRec p)) ∧ (vals ((val (mkRec p)).map fieldVal)).map nodeText = items p := by
    intro p hp
    obtain ⟨o, h1, h2⟩ := value_values W before (hf.labels p hp) (filled hf p hp) c k hk _ (hi p hp)
    simp only [val, h1]
    refine ⟨trivial, ?_⟩
    rw [h2, List.map_map]
    exact List.map_id _
  have hm : (order (papers.map mkRec)).mapM (value W before k) = .ok ((order (papers.map mkRec)).map val) := by
    apply Lemmas.Pipeline.mapM_ok
    intro r hr
    obtain ⟨p, hp, rfl⟩ := of_order ho hr
    exact (hval p hp).1
  unfold oneMode
  rw [records_eq order hf]
  simp only [Option.map_some]
  rw [hm]
  obtain ⟨c1, c2⟩ := Verif.Props.C12_one_mode nodeCount edgeWeight nodeText (fun (v : Option QVal) (_ : Unit) => v.map fieldVal) () ((order (papers.map mkRec)).map val)
  refine ⟨_, rfl, ?_, ?_⟩
  · intro a b
    refine (c1 a b).trans ?_
    have := sum_order (papers := papers) ho (fun r => pairsShared ((vals ((val r).map fieldVal)).map nodeText) a b)
    rw [List.map_congr_left (g := fun p => pairsShared (items p) a b) (fun p hp => by rw [(hval p hp).2])] at this
    rw [List.map_map]
    exact congrArg _ this
  · intro a n hn
    have hb : (instBEqOfDecidableEq : BEq Str) = List.instBEq := lawful_beq_subsingleton _ _
    have c2a := c2 a
    rw [hb] at c2a
    refine c2a.trans ?_
    have : n = (((order (papers.map mkRec)).map val).map (fun v => ((vals (v.map fieldVal)).map nodeText).count a)).sum := by
      have := sum_order (papers := papers) ho (fun r => ((vals ((val r).map fieldVal)).map nodeText).count a)
      rw [List.map_congr_left (g := fun p => (items p).count a) (fun p hp => by rw [(hval p hp).2])] at this
      rw [List.map_map]
      exact hn.trans this.symm
    exact congrArg (fun m : Nat => if m = 0 then none else some (⟨if nodeCount then some m else none, none⟩ : Model.Networks.NodeAttr)) this.symm

/-- **C111, two labels.** The two-mode network of two labels of a ProQuest file: a value of the first is joined to a value of the second as often as papers have both, and
the nodes are the values. -/
theorem C111_two (ho : ∀ rs, (order rs).Perm rs) (hf : FileOk W.ws W.toInt lines papers) (c1 c2 k1 k2 : String) (hk1 : NameOf c1 k1) (hk2 : NameOf c2 k2)
    (items1 items2 : Paper → List Str) (hi1 : ∀ p ∈ papers, Values p c1 (items1 p)) (hi2 : ∀ p ∈ papers, Values p c2 (items2 p))
    (directed nodeCount edgeWeight recordType : Bool) :
    ∃ g, twoMode W before order k1 k2 directed nodeCount edgeWeight recordType lines.flatten = some (.ok g) ∧ g.directed = directed ∧
      (∀ a b, g.edge? a b = edgeFor edgeWeight (papers.map (fun p => crossShared directed (items1 p) (items2 p) a b)).sum) ∧
      ∀ a, g.hasNode a = true ↔ ∃ p ∈ papers, a ∈ items1 p ∨ a ∈ items2 p := by
  let val : String → Model.ProQuest.Rec → Option QVal := fun k r => match value W before k r with | .ok o => o | .error _ => none
  have hval : ∀ c k, NameOf c k → ∀ items : Paper → List Str, (∀ p ∈ papers, Values p c (items p)) → ∀ p ∈ papers,
      value W before k (mkRec p) = .ok (val k (mkRec p)) ∧ (vals ((val k (mkRec p)).map fieldVal)).map nodeText = items p := by
    intro c k hk items hi p hp
    obtain ⟨o, h1, h2⟩ := value_values W before (hf.labels p hp) (filled hf p hp) c k hk _ (hi p hp)
    simp only [val, h1]
    refine ⟨trivial, ?_⟩
    rw [h2, List.map_map]
    exact List.map_id _
  have hm : (order (papers.map mkRec)).mapM (fun r => do return (← value W before k1 r, ← value W before k2 r)) =
      (.ok ((order (papers.map mkRec)).map (fun r => (val k1 r, val k2 r))) : Except AErr _) := by
    apply Lemmas.Pipeline.mapM_ok
    intro r hr
    obtain ⟨p, hp, rfl⟩ := of_order ho hr
    rw [(hval c1 k1 hk1 items1 hi1 p hp).1, (hval c2 k2 hk2 items2 hi2 p hp).1]
    rfl
  have hn1 : ∀ p ∈ papers, Verif.Props.names nodeText (pick k1) [k1] (val k1 (mkRec p), val k2 (mkRec p)) = items1 p := by
    intro p hp
    unfold Verif.Props.names pick
    rw [List.flatMap_cons, List.flatMap_nil, List.append_nil, if_pos rfl]
    exact (hval c1 k1 hk1 items1 hi1 p hp).2
  have hn2 : ∀ p ∈ papers, Verif.Props.names nodeText (pick k1) [k2] (val k1 (mkRec p), val k2 (mkRec p)) = items2 p := by
    intro p hp
    unfold Verif.Props.names pick
    rw [List.flatMap_cons, List.flatMap_nil, List.append_nil]
    have : (if k2 = k1 then (val k1 (mkRec p), val k2 (mkRec p)).1 else (val k1 (mkRec p), val k2 (mkRec p)).2) = val k2 (mkRec p) := by
      by_cases e : k2 = k1
      · rw [if_pos e, e]
      · rw [if_neg e]
    rw [this]
    exact (hval c2 k2 hk2 items2 hi2 p hp).2
  unfold twoMode
  rw [records_eq order hf]
  simp only [Option.map_some]
  rw [hm]
  obtain ⟨_, h2, h3, h4⟩ := Verif.Props.C13_edges_nodes directed nodeCount edgeWeight recordType nodeText nodeText (pick k1) k1 k2
    ((order (papers.map mkRec)).map (fun r => (val k1 r, val k2 r)))
  refine ⟨_, rfl, h2, fun a b => ?_, fun a => ?_⟩
  · refine (h3 a b).trans ?_
    have := sum_order (papers := papers) ho (fun r => crossShared directed (Verif.Props.names nodeText (pick k1) [k1] (val k1 r, val k2 r))
      (Verif.Props.names nodeText (pick k1) [k2] (val k1 r, val k2 r)) a b)
    rw [List.map_congr_left (g := fun p => crossShared directed (items1 p) (items2 p) a b) (fun p hp => by rw [hn1 p hp, hn2 p hp])] at this
    rw [List.map_map]
    exact congrArg _ this
  · refine (h4 a).trans ?_
    constructor
    · rintro ⟨q, hq, ha⟩
      obtain ⟨r, hr, rfl⟩ := List.mem_map.1 hq
      obtain ⟨p, hp, rfl⟩ := of_order ho hr
      rw [hn1 p hp, hn2 p hp] at ha
      exact ⟨p, hp, ha⟩
    · rintro ⟨p, hp, ha⟩
      refine ⟨_, List.mem_map_of_mem ((ho _).mem_iff.2 (List.mem_map_of_mem hp)), ?_⟩
      rw [hn1 p hp, hn2 p hp]
      exact ha

theorem coauthors_of (ho : ∀ rs, (order rs).Perm rs) (hf : FileOk W.ws W.toInt lines papers) (useShort weighted count : Bool) (authors : Paper → List Str)
    (ha : ∀ p ∈ papers, (do Model.ProQuestPipeline.names (← value W before (if useShort = true then "authorsShort" else "authorsFull") (mkRec p))) = .ok (authors p)) :
    ∃ g, coAuthors W before order useShort weighted count lines.flatten = some (.ok g) ∧
      (∀ a b, g.edge? a b = edgeFor weighted (papers.map (fun p => pairsShared (authors p) a b)).sum) ∧
      ∀ a, g.hasNode a = true ↔ ∃ p ∈ papers, a ∈ authors p := by
  have hm : (order (papers.map mkRec)).mapM (fun r => do Model.ProQuestPipeline.names (← value W before (if useShort then "authorsShort" else "authorsFull") r)) =
      .ok ((order (papers.map mkRec)).map (fun r => authors r.fields)) := by
    apply Lemmas.Pipeline.mapM_ok
    intro r hr
    obtain ⟨p, hp, rfl⟩ := of_order ho hr
    rw [fields_of]
    exact ha p hp
  unfold coAuthors
  rw [records_eq order hf]
  simp only [Option.map_some]
  rw [hm]
  have hc := Verif.Props.C15_edges_nodes weighted false count (fun _ => true) id (fun _ => ()) ((order (papers.map mkRec)).map (fun r => authors r.fields))
  have hk : keptRecs false (fun _ => true) ((order (papers.map mkRec)).map (fun r => authors r.fields)) = (order (papers.map mkRec)).map (fun r => authors r.fields) := by
    unfold keptRecs; simp
  rw [hk] at hc
  refine ⟨_, rfl, ?_, ?_⟩
  · intro a b
    refine (hc.2.2.1 a b).trans ?_
    rw [List.map_map]
    refine congrArg _ ((sum_order ho (fun r => pairsShared (authors r.fields) a b)).trans ?_)
    exact congrArg _ (List.map_congr_left (fun p _ => by rw [fields_of]))
  · intro a
    refine (hc.2.2.2 a).trans ?_
    constructor
    · rintro ⟨l, hl, ha'⟩
      obtain ⟨r, hr, rfl⟩ := List.mem_map.1 hl
      obtain ⟨p, hp, rfl⟩ := of_order ho hr
      rw [fields_of] at ha'
      exact ⟨p, hp, ha'⟩
    · rintro ⟨p, hp, ha'⟩
      exact ⟨_, List.mem_map_of_mem ((ho _).mem_iff.2 (List.mem_map_of_mem hp)), by rw [fields_of]; exact ha'⟩

/-- The letters of the word `Author`. -/
def letters : List Str := ["A".toList, "u".toList, "t".toList, "h".toList, "o".toList, "r".toList]

/-- **C111, disagreement.** The network of co-authors with full names does not depend on the authors: its nodes are the letters of the word `Author`, and any two of them are
joined by all papers. -/
theorem C111_coauthors_wrong (ho : ∀ rs, (order rs).Perm rs) (hf : FileOk W.ws W.toInt lines papers) (weighted count : Bool) :
    ∃ g, coAuthors W before order false weighted count lines.flatten = some (.ok g) ∧
      (∀ a, g.hasNode a = true ↔ papers ≠ [] ∧ a ∈ letters) ∧
      ∀ a ∈ letters, ∀ b ∈ letters, a ≠ b → g.edge? a b = edgeFor weighted papers.length := by
  obtain ⟨g, h1, h2, h3⟩ := coauthors_of before ho hf false weighted count (fun _ => letters) (fun p hp => by
    rw [if_neg (by decide), value_full W before (hf.labels p hp)]; rfl)
  refine ⟨g, h1, fun a => ?_, fun a ha b hb hab => ?_⟩
  · rw [h3]
    constructor
    · rintro ⟨p, hp, ha⟩; exact ⟨List.ne_nil_of_mem hp, ha⟩
    · rintro ⟨hne, ha⟩
      obtain ⟨p, hp⟩ := List.exists_mem_of_ne_nil _ hne
      exact ⟨p, hp, ha⟩
  · rw [h2]
    have : pairsShared letters a b = 1 := by
      have : ∀ a ∈ letters, ∀ b ∈ letters, a ≠ b → pairsShared letters a b = 1 := by decide +kernel
      exact this a ha b hb hab
    simp only [this]
    congr 1
    simp

/-- **C111, disagreement.** With short names the nodes are the letters of the names of the authors. -/
theorem C111_coauthors_short_wrong (ho : ∀ rs, (order rs).Perm rs) (hf : FileOk W.ws W.toInt lines papers) (weighted count : Bool) :
    ∃ g, coAuthors W before order true weighted count lines.flatten = some (.ok g) ∧
      ∀ a, g.hasNode a = true ↔ ∃ p ∈ papers, ∃ name, firstOf p "Author" = some name ∧ ∃ x ∈ name, a = [x] := by
  obtain ⟨g, h1, _, h3⟩ := coauthors_of before ho hf true weighted count (fun p => ((firstOf p "Author").getD []).map (fun c => [c])) (fun p hp => by
    rw [if_pos rfl, value_text W before (hf.labels p hp) (filled hf p hp) "Author" "authorsShort" (by decide) (.inr (by decide))]
    cases firstOf p "Author" <;> rfl)
  refine ⟨g, h1, fun a => ?_⟩
  rw [h3]
  constructor
  · rintro ⟨p, hp, ha⟩
    obtain ⟨x, hx, rfl⟩ := List.mem_map.1 ha
    cases hn : firstOf p "Author" with
    | none => rw [hn] at hx; cases hx
    | some name => rw [hn] at hx; exact ⟨p, hp, name, hn, x, hx, rfl⟩
  · rintro ⟨p, hp, name, hn, x, hx, rfl⟩
    exact ⟨p, hp, by rw [hn]; exact List.mem_map_of_mem hx⟩

end

/-! ## A file with two papers -/

def w : World where
  ws c := c == '\n' || c == ' '
  toInt := ProQuestFile.readInt'
  truthy _ := true
  fin _ := .error .other
  ident := .text []

def theFile : List Str :=
  [separator, "\n".toList, "Report Information from ProQuest\n".toList] ++ List.replicate 9 "\n".toList ++
  ["\n".toList, "1. On X\n".toList, "\n".toList, "2. On Y\n".toList, "\n".toList, "Bibliography\n".toList, "a\n".toList, "b\n".toList, "c\n".toList,
   "Document 1 of 2\n".toList, "On X\n".toList, "Author: Doe, Alex\n".toList, "http://x\n".toList, "Title: On X\n".toList, "Subject: ants; bees\n".toList,
   "Degree date: 2001\n".toList, "ProQuest document ID: 77\n".toList, separator, "\n".toList,
   "Document 2 of 2\n".toList, "On Y\n".toList, "Title: On Y\n".toList, "Subject: bees\n".toList, "Degree date: 2001\n".toList,
   "ProQuest document ID: 78\n".toList, separator, "\n".toList, "Bibliography\n".toList]

def file : List Paper :=
  [[("Name".toList, ["On X".toList]), ("Author".toList, ["Doe, Alex".toList]), ("url".toList, ["http://x".toList]), ("Title".toList, ["On X".toList]),
    ("Subject".toList, ["ants; bees".toList]), ("Degree date".toList, ["2001".toList]), ("ProQuest document ID".toList, ["77".toList])],
   [("Name".toList, ["On Y".toList]), ("Title".toList, ["On Y".toList]), ("Subject".toList, ["bees".toList]), ("Degree date".toList, ["2001".toList]),
    ("ProQuest document ID".toList, ["78".toList])]]

theorem file_ok : FileOk w.ws w.toInt theFile file where
  complete := by
    have : ∀ l ∈ theFile, l = l.dropLast ++ ['\n'] ∧ '\n' ∉ l.dropLast ∧ '\r' ∉ l.dropLast := by decide +kernel
    exact fun l hl => ⟨_, this l hl⟩
  start := by decide +kernel
  layout := by
    have hp : Model.ProQuestFile.proQuestParser w.ws w.toInt theFile = .done (file.map mkRec) none := by
      rw [ProQuestFile.parser_bound]; decide +kernel
    obtain ⟨front, index, docs, fss, tail, h1, h2, h3, h4⟩ := (ProQuestFile.C73_reads theFile (file.map mkRec)).1 hp
    have h5 : file = fss := by
      have := congrArg (List.map Model.ProQuest.Rec.fields) h4
      rw [List.map_map, List.map_map] at this
      have e : ∀ l : List Paper, l.map (Model.ProQuest.Rec.fields ∘ mkRec) = l := fun l =>
        (List.map_congr_left (fun p _ => fields_of p)).trans (List.map_id l)
      rwa [e, e] at this
    rw [h5]
    exact ⟨front, index, docs, tail, h1, h2, h3⟩
  number := by
    have : ∀ p ∈ file, (firstOf p "ProQuest document ID").isSome = true := by decide +kernel
    exact fun p hp => Option.isSome_iff_exists.1 (this p hp)
  different := by decide +kernel
  labels := by decide +kernel

def subjects (p : Paper) : List Str := Str.split "; ".toList ((firstOf p "Subject").getD [])

theorem subjects_ok : ∀ p ∈ file, Values p "Subject" (subjects p) := by
  intro p hp
  refine .inl ⟨"; ", by decide, .inr ?_⟩
  have : ∀ p ∈ file, subjects p ≠ [] ∧ p.get? "Subject".toList = some ["; ".toList.intercalate (subjects p)] ∧
      ∀ x ∈ subjects p, Str.contains "; ".toList x = false := by decide +kernel
  obtain ⟨h1, h2, h3⟩ := this p hp
  refine ⟨h1, ⟨[], h2⟩, fun x hx hi => ?_⟩
  have := h3 x hx
  rw [(Str.contains_iff _ _).2 hi] at this
  cases this

theorem one_ok (c : String) (hc : c ∈ oneLine) : ∀ p ∈ file, Values p c (firstOf p c).toList := fun _ _ => .inr ⟨hc, rfl⟩

example := C111_reading (W := w) (fun _ => [.item "Title", .mem "Abstract"]) List.reverse_perm file_ok

example : ∃ l : List (Str × Nat), ranked w (fun _ => [.item "title"]) List.reverse "Subject" true false true false none theFile.flatten =
    some (.ok (.ok (.pairs (l.map (fun e => (QVal.text e.1, e.2)))))) ∧ ("bees".toList, 2) ∈ l ∧ ("ants".toList, 1) ∈ l := by
  obtain ⟨l, h1, _, h3, _⟩ := C111_ranked (W := w) (fun _ => [.item "title"]) List.reverse_perm file_ok "Subject" "Subject" (.inl rfl) _ subjects_ok true
  exact ⟨l, h1, (h3 _ _).2 (by decide +kernel), (h3 _ _).2 (by decide +kernel)⟩

example : ∃ l : List (Str × Nat), ranked w (fun _ => []) List.reverse "year" true false true false none theFile.flatten =
    some (.ok (.ok (.pairs (l.map (fun e => (QVal.text e.1, e.2)))))) ∧ ("2001".toList, 2) ∈ l := by
  obtain ⟨l, h1, _, h3, _⟩ := C111_ranked (W := w) (fun _ => []) List.reverse_perm file_ok "Degree date" "year" (.inr (by decide)) _
    (one_ok _ (by decide)) true
  exact ⟨l, h1, (h3 _ _).2 (by decide +kernel)⟩

example : ∃ g, oneMode w (fun _ => []) List.reverse "Subject" true true theFile.flatten = some (.ok g) ∧
    g.edge? "ants".toList "bees".toList = some (some 1) ∧ g.node? "bees".toList = some ⟨some 2, none⟩ := by
  obtain ⟨g, h1, h2, h3⟩ := C111_terms (W := w) (fun _ => []) List.reverse_perm file_ok "Subject" "Subject" (.inl rfl) _ subjects_ok true true
  exact ⟨g, h1, (h2 _ _).trans (by decide +kernel), h3 _ 2 (by decide +kernel)⟩

example : ∃ g, twoMode w (fun _ => []) List.reverse "year" "Subject" true true true true theFile.flatten = some (.ok g) ∧
    g.edge? "2001".toList "bees".toList = some (some 2) ∧ g.edge? "bees".toList "2001".toList = none := by
  obtain ⟨g, h1, _, h3, _⟩ := C111_two (W := w) (fun _ => []) List.reverse_perm file_ok "Degree date" "Subject" "year" "Subject" (.inr (by decide)) (.inl rfl) _ _
    (one_ok _ (by decide)) subjects_ok true true true true
  exact ⟨g, h1, (h3 _ _).trans (by decide +kernel), (h3 _ _).trans (by decide +kernel)⟩

example : ∃ g, coAuthors w (fun _ => []) List.reverse false true true theFile.flatten = some (.ok g) ∧ g.hasNode "u".toList = true ∧ g.hasNode "Doe, Alex".toList = false ∧
    g.edge? "A".toList "u".toList = some (some 2) := by
  obtain ⟨g, h1, h2, h3⟩ := C111_coauthors_wrong (W := w) (fun _ => []) List.reverse_perm file_ok true true
  exact ⟨g, h1, (h2 _).2 (by decide +kernel), Bool.eq_false_iff.2 (fun h => absurd ((h2 _).1 h) (by decide +kernel)),
    (h3 _ (by decide) _ (by decide) (by decide)).trans (by decide +kernel)⟩

example := C111_coauthors_short_wrong (W := w) (fun _ => []) List.reverse_perm file_ok true true

end Verif.Props.ProQuestPipeline
