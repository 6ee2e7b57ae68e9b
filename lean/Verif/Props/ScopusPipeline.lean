import Verif.Lemmas.ScopusPipeline
import Verif.Props.Pipeline

/-! # C109: from a Scopus file to networks and tables -/
set_option autoImplicit false
set_option linter.unusedSimpArgs false
namespace Verif.Props.ScopusPipeline
open Verif.Py Verif.Model.OtherFields Verif.Model.RecordAccess Verif.Model.ScopusPipeline Verif.Spec.ScopusPipeline Verif.Spec Verif.Spec.Scopus
  Verif.Lemmas.ScopusPipeline Verif.Props.Pipeline
open Verif.Model.Series

section
variable {W : World} {order : List Model.Scopus.Rec → List Model.Scopus.Rec} (before : Model.Scopus.Rec → List (Op String SVal)) {papers : List Paper}

theorem sum_order (ho : ∀ rs, (order rs).Perm rs) (f : Model.Scopus.Rec → Nat) :
    ((order (papers.map toRec)).map f).sum = (papers.map (fun p => f (toRec p))).sum := by
  rw [((ho (papers.map toRec)).map f).sum_nat, List.map_map]; rfl

theorem of_order (ho : ∀ rs, (order rs).Perm rs) (hf : FileOk papers) {r : Model.Scopus.Rec} (hr : r ∈ order (papers.map toRec)) :
    ∃ p ∈ papers, PaperOk p ∧ r = toRec p := by
  obtain ⟨p, hp, rfl⟩ := List.mem_map.1 ((ho _).mem_iff.1 hr)
  exact ⟨p, hp, hf.each p hp, rfl⟩

/-- The paper a record was made from. -/
theorem paper_of (hf : FileOk papers) : ∃ of : Model.Scopus.Rec → Paper, ∀ p ∈ papers, of (toRec p) = p := by
  classical
  have hinj : ∀ p ∈ papers, ∀ q ∈ papers, toRec p = toRec q → p = q := by
    intro p hp q hq e
    have hid : (toRec p).id = (toRec q).id := by rw [e]
    exact List.inj_on_of_nodup_map (distinct hf) hp hq hid
  refine ⟨fun r => if hr : ∃ p ∈ papers, toRec p = r then hr.choose else fun _ => .bare [], fun p hp => ?_⟩
  have hr : ∃ q ∈ papers, toRec q = toRec p := ⟨p, hp, rfl⟩
  show (if hr : ∃ q ∈ papers, toRec q = toRec p then hr.choose else _) = p
  rw [dif_pos hr]
  exact hinj _ hr.choose_spec.1 _ hp hr.choose_spec.2

/-- The collection holds one record for each paper. Under its name and under its common names a column gives what stands in the file, nothing when the cell is empty,
whatever was read before. -/
theorem C109_reading (ho : ∀ rs, (order rs).Perm rs) (hf : FileOk papers) : ∃ (rs : List Model.Scopus.Rec) (of : Model.Scopus.Rec → Paper),
    records order (fileText papers) = some rs ∧ (rs.map of).Perm papers ∧ ∀ r ∈ rs,
      r.id = some ("EID:".toList ++ ((of r) "EID").value.getD []) ∧
      (∀ c sep k l, (c, sep) ∈ listColumns → NameOf c k → Lists sep (of r c) l → value W before k r = .ok (if l = [] then none else some (.texts l))) ∧
      (∀ c ∈ textColumns, ∀ k, NameOf c k → value W before k r = .ok ((of r c).value.map .text)) ∧
      ∀ c ∈ ["Year", "Page count", "Cited by", "Conference code"], ∀ k, NameOf c k →
        ((of r c).value = none → value W before k r = .ok none) ∧
        ∀ t n, (of r c).value = some t → W.prims.int t = some n → value W before k r = .ok (some (.num n)) := by
  obtain ⟨of, hof⟩ := paper_of hf
  refine ⟨_, of, records_eq order hf, ?_, ?_⟩
  · have := (ho (papers.map toRec)).map of
    rw [List.map_map] at this
    refine this.trans (List.Perm.of_eq ?_)
    conv => rhs; rw [← List.map_id papers]
    exact List.map_congr_left (fun p hp => hof p hp)
  · intro r hr
    obtain ⟨p, hp, hpok, rfl⟩ := of_order ho hf hr
    rw [hof p hp]
    refine ⟨(toRec_spec hpok).2.2.1, fun c sep k l hc hk hl => value_list W before hpok c sep k hc hk l hl, ?_, ?_⟩
    · intro c hc k hk
      have hcol : ∀ c ∈ textColumns, c ∈ columns ∧ scopusKinds.get? c.toList = some .string := by decide +kernel
      obtain ⟨h1, h2⟩ := hcol c hc
      rw [value_eq W before hpok c k h1 hk]
      unfold direct
      cases (p c).value with
      | none => rfl
      | some t => simp only [cls, OtherFields.kind_of W.prims h2, processScopus]; rfl
    · intro c hc k hk
      have hcol : ∀ c ∈ ["Year", "Page count", "Cited by", "Conference code"], c ∈ columns ∧ scopusKinds.get? c.toList = some .integer := by decide +kernel
      obtain ⟨h1, h2⟩ := hcol c hc
      rw [value_eq W before hpok c k h1 hk]
      refine ⟨fun hv => by unfold direct; rw [hv]; rfl, fun t n hv hn => ?_⟩
      unfold direct
      rw [hv]
      simp only [cls, OtherFields.kind_of W.prims h2, processScopus, hn]
      rfl

/-- **C109, co-authors.** The network of co-authors made from a Scopus file: two names are joined as often as a paper lists both, over the papers, and the nodes are the
names listed. Short and full names are the same. -/
theorem C109_coauthors (ho : ∀ rs, (order rs).Perm rs) (hf : FileOk papers) (authors : Paper → List Str)
    (ha : ∀ p ∈ papers, Lists ", " (p "Authors") (authors p)) (useShort weighted count : Bool) :
    ∃ g, coAuthors W before order useShort weighted count (fileText papers) = some (.ok g) ∧
      (∀ a b, g.edge? a b = edgeFor weighted (papers.map (fun p => pairsShared (authors p) a b)).sum) ∧
      ∀ a, g.hasNode a = true ↔ ∃ p ∈ papers, a ∈ authors p := by
  obtain ⟨of, hof⟩ := paper_of hf
  have hm : (order (papers.map toRec)).mapM (fun r => do Model.ScopusPipeline.names (← value W before (if useShort then "authorsShort" else "authorsFull") r)) =
      .ok ((order (papers.map toRec)).map (fun r => authors (of r))) := by
    apply Lemmas.Pipeline.mapM_ok
    intro r hr
    obtain ⟨p, hp, hpok, rfl⟩ := of_order ho hf hr
    have hv := value_list W before hpok "Authors" ", " (if useShort then "authorsShort" else "authorsFull") (by decide)
      (by cases useShort <;> exact .inr (by decide)) _ (ha p hp)
    rw [hv, hof p hp]
    by_cases hl : authors p = []
    · rw [if_pos hl, hl]; rfl
    · rw [if_neg hl]; rfl
  unfold coAuthors
  rw [records_eq order hf]
  simp only [Option.map_some]
  rw [hm]
  have hc := Verif.Props.C15_edges_nodes weighted false count (fun _ => true) id (fun _ => ()) ((order (papers.map toRec)).map (fun r => authors (of r)))
  have hk : keptRecs false (fun _ => true) ((order (papers.map toRec)).map (fun r => authors (of r))) = (order (papers.map toRec)).map (fun r => authors (of r)) := by
    unfold keptRecs; simp
  rw [hk] at hc
  refine ⟨_, rfl, ?_, ?_⟩
  · intro a b
    refine (hc.2.2.1 a b).trans ?_
    rw [List.map_map]
    refine congrArg _ ((sum_order ho (fun r => pairsShared (authors (of r)) a b)).trans ?_)
    exact congrArg _ (List.map_congr_left (fun p hp => by rw [hof p hp]))
  · intro a
    refine (hc.2.2.2 a).trans ?_
    constructor
    · rintro ⟨l, hl, ha'⟩
      obtain ⟨r, hr, rfl⟩ := List.mem_map.1 hl
      obtain ⟨p, hp, _, rfl⟩ := of_order ho hf hr
      rw [hof p hp] at ha'
      exact ⟨p, hp, ha'⟩
    · rintro ⟨p, hp, ha'⟩
      exact ⟨_, List.mem_map_of_mem ((ho _).mem_iff.2 (List.mem_map_of_mem hp)), by rw [hof p hp]; exact ha'⟩

/-- The same in words: when no paper lists a name twice, the weight between two different names is the number of papers that list both. -/
theorem C109_coauthors_papers (ho : ∀ rs, (order rs).Perm rs) (hf : FileOk papers) (authors : Paper → List Str)
    (ha : ∀ p ∈ papers, Lists ", " (p "Authors") (authors p)) (hn : ∀ p ∈ papers, (authors p).Nodup) (useShort count : Bool) :
    ∃ g, coAuthors W before order useShort true count (fileText papers) = some (.ok g) ∧ ∀ a b, a ≠ b → ∀ n : Nat,
      n = papers.countP (fun p => decide (a ∈ authors p ∧ b ∈ authors p)) → g.edge? a b = if n = 0 then none else some (some n) := by
  obtain ⟨g, h1, h2, _⟩ := C109_coauthors before ho hf authors ha useShort true count
  refine ⟨g, h1, fun a b hab n hn' => ?_⟩
  have key : ∀ ps : List Paper, (∀ p ∈ ps, (authors p).Nodup) →
      (ps.map (fun p => pairsShared (authors p) a b)).sum = ps.countP (fun p => decide (a ∈ authors p ∧ b ∈ authors p)) := by
    intro ps
    induction ps with
    | nil => intro _; rfl
    | cons p ps ih =>
      intro hps
      rw [List.map_cons, List.sum_cons, ih (fun q hq => hps q (List.mem_cons_of_mem _ hq)), List.countP_cons, Nat.add_comm]
      have e : pairsShared (authors p) a b = if decide (a ∈ authors p ∧ b ∈ authors p) = true then 1 else 0 := by
        rw [pairs_nodup (hps p (by simp)) hab]; simp
      rw [e]
  rw [h2 a b, key papers hn, ← hn']
  rfl

/-- `rankedSeries` of a file when the values are known. -/
theorem ranked_of (ho : ∀ rs, (order rs).Perm rs) (hf : FileOk papers) (tag : String) (gf : Bool) (val : Paper → Option SVal)
    (hv : ∀ p ∈ papers, value W before tag (toRec p) = .ok (val p)) :
    ∃ l : List (SVal × Nat), ranked W before order tag true false gf false none (fileText papers) = some (.ok (.ok (.pairs l))) ∧
      (l.map Prod.fst).Nodup ∧
      (∀ v n, (v, n) ∈ l ↔ n = (papers.map (fun p => (vals ((val p).map fieldVal)).count v)).sum ∧ 0 < n) ∧
      (gf = true → l.Pairwise (fun a b => b.2 ≤ a.2)) ∧ (gf = false → l.Pairwise (fun a b => a.2 ≤ b.2)) := by
  unfold ranked
  rw [records_eq order hf]
  simp only [Option.map_some]
  obtain ⟨of, hof⟩ := paper_of hf
  have hm : (order (papers.map toRec)).mapM (value W before tag) = .ok ((order (papers.map toRec)).map (fun r => val (of r))) := by
    apply Lemmas.Pipeline.mapM_ok
    intro r hr
    obtain ⟨p, hp, _, rfl⟩ := of_order ho hf hr
    rw [hv p hp, hof p hp]
  rw [hm]
  obtain ⟨l, h1, ⟨h2, h3⟩, h4, h5⟩ := Verif.Props.C09_counts (fun v : Option SVal => v.map fieldVal) ((order (papers.map toRec)).map (fun r => val (of r))) gf none
  refine ⟨l, congrArg (fun x => some (Except.ok x)) h1, h2, fun v n => ?_, h4, h5⟩
  rw [h3 v n]
  unfold occurrences
  rw [List.map_map]
  have := sum_order (papers := papers) ho (fun r => (vals ((val (of r)).map fieldVal)).count v)
  have hmap : papers.map (fun p => (vals ((val (of (toRec p))).map fieldVal)).count v) = papers.map (fun p => (vals ((val p).map fieldVal)).count v) :=
    List.map_congr_left (fun p hp => by rw [hof p hp])
  rw [hmap] at this
  rw [← this]
  simp [Permitted, Function.comp_def]

/-- **C109, values ranked.** `rankedSeries` of a Scopus file under any name of a column of lists: each value once, with the number of times the papers have it, in the
order of these numbers. -/
theorem C109_ranked (ho : ∀ rs, (order rs).Perm rs) (hf : FileOk papers) (c sep k : String) (hc : (c, sep) ∈ listColumns) (hk : NameOf c k)
    (items : Paper → List Str) (hi : ∀ p ∈ papers, Lists sep (p c) (items p)) (gf : Bool) :
    ∃ l : List (Str × Nat), ranked W before order k true false gf false none (fileText papers) =
        some (.ok (.ok (.pairs (l.map (fun e => (SVal.text e.1, e.2)))))) ∧ (l.map Prod.fst).Nodup ∧
      (∀ a n, (a, n) ∈ l ↔ n = (papers.map (fun p => (items p).count a)).sum ∧ 0 < n) ∧
      (gf = true → l.Pairwise (fun a b => b.2 ≤ a.2)) ∧ (gf = false → l.Pairwise (fun a b => a.2 ≤ b.2)) := by
  obtain ⟨L, h1, h2, h3, h4, h5⟩ := ranked_of (W := W) before ho hf k gf (fun p => if items p = [] then none else some (.texts (items p)))
    (fun p hp => value_list W before (hf.each p hp) c sep k hc hk _ (hi p hp))
  have hvals : ∀ p : Paper, vals ((if items p = [] then none else some (SVal.texts (items p))).map fieldVal) = (items p).map .text := by
    intro p
    by_cases hl : items p = []
    · rw [if_pos hl, hl]; rfl
    · rw [if_neg hl]; rfl
  simp only [hvals] at h3
  have inj : ∀ a b : Str, SVal.text a = .text b → a = b := fun a b e => by injection e
  obtain ⟨l, hl, e2, e3, e4, e5⟩ := retype (f := SVal.text) inj L h2 (fun v n hv => by
    obtain ⟨rfl, h0⟩ := (h3 v n).1 hv
    obtain ⟨p, _, hc⟩ := exists_pos h0
    obtain ⟨s, _, rfl⟩ := List.mem_map.1 (List.count_pos_iff.1 hc)
    exact ⟨s, rfl⟩)
  subst hl
  refine ⟨l, h1, e2, fun a n => ?_, fun g => e4 (h4 g), fun g => e5 (h5 g)⟩
  rw [← e3, h3]
  have : ∀ p : Paper, ((items p).map SVal.text).count (.text a) = (items p).count a := fun p => List.count_map_of_injective _ SVal.text inj _
  simp only [this]

/-- **C109, years ranked.** `rankedSeries('year')` of a Scopus file gives each year that occurs once, with the number of papers of that year. -/
theorem C109_years (ho : ∀ rs, (order rs).Perm rs) (hf : FileOk papers) (hint : ∀ n : Nat, W.prims.int (showNat n) = some (n : Int))
    (year : Paper → Option Nat) (hy : ∀ p ∈ papers, (p "Year").value = (year p).map showNat) (k : String) (hk : NameOf "Year" k) (gf : Bool) :
    ∃ l : List (Nat × Nat), ranked W before order k true false gf false none (fileText papers) =
        some (.ok (.ok (.pairs (l.map (fun e => (SVal.num e.1, e.2)))))) ∧ (l.map Prod.fst).Nodup ∧
      (∀ y n, (y, n) ∈ l ↔ n = papers.countP (fun p => decide (year p = some y)) ∧ 0 < n) ∧
      (gf = true → l.Pairwise (fun a b => b.2 ≤ a.2)) ∧ (gf = false → l.Pairwise (fun a b => a.2 ≤ b.2)) := by
  obtain ⟨L, h1, h2, h3, h4, h5⟩ := ranked_of (W := W) before ho hf k gf (fun p => (year p).map (fun y : Nat => SVal.num (y : Int))) (by
    intro p hp
    rw [value_eq W before (hf.each p hp) "Year" k (by decide) hk]
    unfold direct
    rw [hy p hp]
    cases year p with
    | none => rfl
    | some y =>
      have : scopusValue W.prims "Year".toList (showNat y) = .ok (.num y) := by
        rw [OtherFields.kind_of W.prims (k := .integer) (by decide)]
        simp only [processScopus, hint]
      simp only [Option.map_some, cls, this]
      rfl)
  have hvals : ∀ p : Paper, ∀ y : Nat, (vals (((year p).map (fun y : Nat => SVal.num (y : Int))).map fieldVal)).count (.num y) = if year p = some y then 1 else 0 := by
    intro p y
    cases hyp : year p with
    | none => rfl
    | some z =>
      show [SVal.num (z : Int)].count (.num (y : Int)) = if some z = some y then 1 else 0
      simp only [Option.some.injEq]
      by_cases e : z = y
      · subst e; simp
      · rw [if_neg e, List.count_eq_zero]
        simp only [List.mem_cons, SVal.num.injEq, List.not_mem_nil, or_false]
        omega
  obtain ⟨l, hl, e2, e3, e4, e5⟩ := retype (f := fun y : Nat => SVal.num y)
    (fun a b e => by have := SVal.num.inj e; omega) L h2 (fun v n hv => by
      obtain ⟨rfl, h0⟩ := (h3 v n).1 hv
      obtain ⟨p, hp, hc⟩ := exists_pos h0
      have hm := List.count_pos_iff.1 hc
      cases hyp : year p with
      | none => rw [hyp] at hm; cases hm
      | some z =>
        rw [hyp] at hm
        exact ⟨z, List.mem_singleton.1 hm⟩)
  subst hl
  refine ⟨l, h1, e2, fun y n => ?_, fun g => e4 (h4 g), fun g => e5 (h5 g)⟩
  rw [← e3, h3]
  simp only [hvals]
  rw [sum_ite]

/-- **C109, keywords.** The network of the keywords of a Scopus file (or of another column of lists): two are joined as often as a paper has both, and each counts the
papers that have it. -/
theorem C109_terms (ho : ∀ rs, (order rs).Perm rs) (hf : FileOk papers) (c sep k : String) (hc : (c, sep) ∈ listColumns) (hk : NameOf c k)
    (items : Paper → List Str) (hi : ∀ p ∈ papers, Lists sep (p c) (items p)) (nodeCount edgeWeight : Bool) :
    ∃ g, oneMode W before order k nodeCount edgeWeight (fileText papers) = some (.ok g) ∧
      (∀ a b, g.edge? a b = edgeFor edgeWeight (papers.map (fun p => pairsShared (items p) a b)).sum) ∧
      ∀ a n, n = (papers.map (fun p => (items p).count a)).sum → g.node? a = if n = 0 then none else some ⟨if nodeCount then some n else none, none⟩ := by
  obtain ⟨of, hof⟩ := paper_of hf
  have hm : (order (papers.map toRec)).mapM (value W before k) =
      .ok ((order (papers.map toRec)).map (fun r => if items (of r) = [] then none else some (.texts (items (of r))))) := by
    apply Lemmas.Pipeline.mapM_ok
    intro r hr
    obtain ⟨p, hp, hpok, rfl⟩ := of_order ho hf hr
    rw [value_list W before hpok c sep k hc hk _ (hi p hp), hof p hp]
  unfold oneMode
  rw [records_eq order hf]
  simp only [Option.map_some]
  rw [hm]
  have hv : ∀ l : List Str, (vals ((if l = [] then none else some (SVal.texts l)).map fieldVal)).map nodeText = l := by
    intro l
    by_cases hl : l = []
    · rw [if_pos hl, hl]; rfl
    · rw [if_neg hl]
      show (l.map SVal.text).map nodeText = l
      rw [List.map_map]; exact List.map_id l
  obtain ⟨c1, c2⟩ := Verif.Props.C12_one_mode nodeCount edgeWeight nodeText (fun (v : Option SVal) (_ : Unit) => v.map fieldVal) ()
    ((order (papers.map toRec)).map (fun r => if items (of r) = [] then none else some (.texts (items (of r)))))
  refine ⟨_, rfl, ?_, ?_⟩
  · intro a b
    refine (c1 a b).trans ?_
    have := sum_order (papers := papers) ho (fun r => pairsShared (items (of r)) a b)
    rw [List.map_congr_left (g := fun p => pairsShared (items p) a b) (fun p hp => by rw [hof p hp])] at this
    simp only [List.map_map, Function.comp_def, hv]
    exact congrArg _ this
  · intro a n hn
    have hb : (instBEqOfDecidableEq : BEq Str) = List.instBEq := lawful_beq_subsingleton _ _
    have c2a := c2 a
    rw [hb] at c2a
    refine c2a.trans ?_
    have : n = (((order (papers.map toRec)).map (fun r => if items (of r) = [] then none else some (SVal.texts (items (of r))))).map
        (fun v => ((vals (v.map fieldVal)).map nodeText).count a)).sum := by
      have := sum_order (papers := papers) ho (fun r => (items (of r)).count a)
      rw [List.map_congr_left (g := fun p => (items p).count a) (fun p hp => by rw [hof p hp])] at this
      simp only [List.map_map, Function.comp_def, hv]
      exact hn.trans this.symm
    exact congrArg (fun m : Nat => if m = 0 then none else some (⟨if nodeCount then some m else none, none⟩ : Model.Networks.NodeAttr)) this.symm

open Classical in
/-- **C109, co-citation.** Every entry of the column of references is read as a work. The network joins two works as often as a paper cites both, where only the works
are taken that the options ask for; the works are named by what is read of them or by the whole entry. -/
theorem C109_cocitation (ho : ∀ rs, (order rs).Perm rs) (hf : FileOk papers) (refs : Paper → List Str) (hi : ∀ p ∈ papers, Lists "; " (p "References") (refs p))
    (env : Model.CiteNetworks.Env) (own : Model.Scopus.Rec → Model.Citation.Cite) (o : Model.CiteNetworks.Opts) (hco : o.coreOnly = false)
    (hnt : o.nodeType = .full ∨ o.nodeType = .original) :
    ∃ g, coCitations W before order env o own (fileText papers) = some (.ok (.ok g)) ∧
      (∀ u v, g.edge? u v = edgeFor o.weighted (papers.map (fun p => pairsShared ((((refs p).map (fun s => (Model.CiteParse.parseScopus W.chars s).cite)).filter
        (fun c => decide (Wanted env o.nodeType o.dropAnon o.dropNonJournals o.keyWords none c))).map (nodeName o.nodeType)) u v)).sum) ∧
      ∀ n, g.hasNode n = true ↔ ∃ p ∈ papers, ∃ s ∈ refs p,
        Wanted env o.nodeType o.dropAnon o.dropNonJournals o.keyWords none (Model.CiteParse.parseScopus W.chars s).cite ∧
        nodeName o.nodeType (Model.CiteParse.parseScopus W.chars s).cite = n := by
  obtain ⟨of, hof⟩ := paper_of hf
  have hattr : ∀ c, HasAttr o.nodeType c := by
    intro c
    rcases hnt with e | e <;> rw [e] <;> exact trivial
  let cite : Str → Model.Citation.Cite := fun s => (Model.CiteParse.parseScopus W.chars s).cite
  let cs : Model.Scopus.Rec → Option (List Model.Citation.Cite) := fun r => if refs (of r) = [] then none else some ((refs (of r)).map cite)
  have hm : (order (papers.map toRec)).mapM (fun r => do return (r, citations W (← value W before "citations" r))) =
      (.ok ((order (papers.map toRec)).map (fun r => (r, cs r))) : Except AErr _) := by
    apply Lemmas.Pipeline.mapM_ok
    intro r hr
    obtain ⟨p, hp, hpok, rfl⟩ := of_order ho hf hr
    rw [value_eq W before hpok "References" "citations" (by decide) (.inr (by decide))]
    simp only [cs, hof p hp]
    unfold direct
    rcases hi p hp with ⟨h1, h2⟩ | ⟨h1, h2, h3⟩
    · rw [h1, if_pos h2]; rfl
    · rw [h2, if_neg h1]
      have := ((OtherFields.C71_scopus_lists W.prims (refs p) h1).2.2 h3).2.2
      simp only [cls, this]
      rfl
  unfold coCitations
  rw [records_eq order hf]
  simp only [Option.map_some]
  rw [hm]
  have hkept : ∀ r, keptCites env o (fun p : Model.Scopus.Rec × Option (List Model.Citation.Cite) => own p.1) Prod.snd
      ((order (papers.map toRec)).map (fun r => (r, cs r))) (r, cs r) = ((refs (of r)).map cite).filter
        (fun c => decide (Wanted env o.nodeType o.dropAnon o.dropNonJournals o.keyWords none c)) := by
    intro r
    have hg : ((cs r).getD []) = (refs (of r)).map cite := by
      by_cases hl : refs (of r) = []
      · simp only [cs, if_pos hl, hl]; rfl
      · simp only [cs, if_neg hl]; rfl
    unfold keptCites
    rw [hg]
    apply List.filter_congr
    intro c _
    congr 1
    unfold Enters Wanted
    simp [hattr c, hco]
  obtain ⟨g, g1, _, _, g4, g5⟩ := Verif.Props.C16_cocitation env o (fun _ => ()) (fun p : Model.Scopus.Rec × Option (List Model.Citation.Cite) => own p.1) Prod.snd
    ((order (papers.map toRec)).map (fun r => (r, cs r))) (fun _ _ c _ => hattr c)
  refine ⟨g, congrArg (fun x => some (Except.ok x)) g1, ?_, ?_⟩
  · intro u v
    rw [g4, List.map_map]
    simp only [Function.comp_def, hkept]
    refine congrArg _ ((sum_order (papers := papers) ho (fun r => pairsShared ((((refs (of r)).map cite).filter
        (fun c => decide (Wanted env o.nodeType o.dropAnon o.dropNonJournals o.keyWords none c))).map (nodeName o.nodeType)) u v)).trans ?_)
    exact congrArg _ (List.map_congr_left (fun p hp => by rw [hof p hp]))
  · intro n
    unfold Graph.hasNode
    rw [g5, Option.isSome_map, List.find?_isSome]
    simp only [List.mem_flatMap, decide_eq_true_eq]
    constructor
    · rintro ⟨c, ⟨q, hq, hc⟩, hn⟩
      obtain ⟨r, hr, rfl⟩ := List.mem_map.1 hq
      obtain ⟨p, hp, _, rfl⟩ := of_order ho hf hr
      rw [hkept, hof p hp] at hc
      obtain ⟨hc1, hc2⟩ := List.mem_filter.1 hc
      obtain ⟨x, hx, rfl⟩ := List.mem_map.1 hc1
      exact ⟨p, hp, x, hx, by simpa using hc2, hn⟩
    · rintro ⟨p, hp, x, hx, hw, hn⟩
      refine ⟨cite x, ⟨_, List.mem_map_of_mem ((ho _).mem_iff.2 (List.mem_map_of_mem hp)), ?_⟩, hn⟩
      rw [hkept, hof p hp]
      exact List.mem_filter.2 ⟨List.mem_map_of_mem hx, by simpa using hw⟩

theorem scopus_original (C : Model.CiteParse.Chars) (s : Str) : (Model.CiteParse.parseScopus C s).cite.original = s := by
  unfold Model.CiteParse.parseScopus
  split
  · rfl
  · dsimp only
    split <;> rfl

/-- **C109, co-citation by entries.** With the whole entry as the name of a work and nothing left out, two entries are joined as often as a paper has both. -/
theorem C109_cocitation_entries (ho : ∀ rs, (order rs).Perm rs) (hf : FileOk papers) (refs : Paper → List Str)
    (hi : ∀ p ∈ papers, Lists "; " (p "References") (refs p)) (env : Model.CiteNetworks.Env) (own : Model.Scopus.Rec → Model.Citation.Cite) (count weighted : Bool) :
    ∃ g, coCitations W before order env ⟨.original, false, false, .none, false, count, weighted⟩ own (fileText papers) = some (.ok (.ok g)) ∧
      (∀ a b : Str, g.edge? (.str a) (.str b) = edgeFor weighted (papers.map (fun p => pairsShared ((refs p).filter (· ≠ [])) a b)).sum) ∧
      ∀ a : Str, g.hasNode (.str a) = true ↔ a ≠ [] ∧ ∃ p ∈ papers, a ∈ refs p := by
  obtain ⟨g, g1, g2, g3⟩ := C109_cocitation (W := W) before ho hf refs hi env own ⟨.original, false, false, .none, false, count, weighted⟩ rfl (.inr rfl)
  have hor := scopus_original W.chars
  have hW : ∀ c, Wanted env .original false false .none none (Model.CiteParse.parseScopus W.chars c).cite ↔ c ≠ [] := by
    intro c
    unfold Wanted
    simp [HasValue, hor, KeyWords.toList]
  refine ⟨g, g1, fun a b => ?_, fun a => ?_⟩
  · rw [g2]
    refine congrArg _ (congrArg _ (List.map_congr_left fun p _ => ?_))
    rw [← pairs_map (f := Model.CiteNetworks.NodeId.str) (fun x y e => by injection e), List.filter_map, List.map_map]
    rw [List.filter_congr (q := fun c => decide (c ≠ [])) (by
      intro c _
      simp only [Function.comp, hW])]
    have e : ∀ l : List Str, l.map (nodeName .original ∘ fun s => (Model.CiteParse.parseScopus W.chars s).cite) = l.map Model.CiteNetworks.NodeId.str :=
      fun l => List.map_congr_left (fun c _ => by simp [nodeName, hor])
    rw [e]
  · rw [g3]
    constructor
    · rintro ⟨p, hp, x, hx, hw, hn⟩
      simp only [nodeName, hor] at hn
      injection hn with hn
      subst hn
      exact ⟨(hW _).1 hw, p, hp, hx⟩
    · rintro ⟨ha, p, hp, hx⟩
      exact ⟨p, hp, a, hx, (hW _).2 ha, by simp [nodeName, hor]⟩

/-! ## Writing the collection and reading it again -/

theorem written_line {p : Paper} (h : PaperOk p) : (Model.Scopus.writeRecord (toRec p)).map (· ++ ['\n']) = some (lineText (requote p)) := by
  obtain ⟨h1, _, _, h4⟩ := toRec_spec h
  unfold Model.Scopus.writeRecord lineText
  rw [h4]
  simp only [Bool.false_eq_true, if_false, Option.map_some, header_columns, Verif.Props.Bib.join_intercalate, List.map_map]
  congr 3
  apply List.map_congr_left
  intro c hc
  simp only [Function.comp_apply, h1 c hc]
  rfl

theorem preimage {α β : Type} {f : α → β} {l : List α} {m : List β} (h : m.Perm (l.map f)) : ∃ l' : List α, l'.Perm l ∧ m = l'.map f := by
  have : List.Forall₂ (fun b a => b = f a) (l.map f) l := by
    clear h
    induction l with
    | nil => exact .nil
    | cons a l ih => exact .cons rfl ih
  obtain ⟨w, hw1, hw2⟩ := List.perm_comp_forall₂ h this
  refine ⟨w, hw2, ?_⟩
  clear hw2 h this
  induction hw1 with
  | nil => rfl
  | cons e _ ih => rw [List.map_cons, e, ih]

/-- What `writeFile` writes for the collection made from a file: the papers in some order, with every cell in quotes, the empty ones too. -/
theorem C110_rewritten (ho : ∀ rs, (order rs).Perm rs) (hf : FileOk papers) (hne : papers ≠ []) :
    ∃ papers' : List Paper, papers'.Perm papers ∧ rewritten order (fileText papers) = some (fileText (papers'.map requote)) := by
  obtain ⟨papers', h1, h2⟩ := preimage (ho (papers.map toRec))
  refine ⟨papers', h1, ?_⟩
  unfold rewritten
  rw [records_eq order hf, h2]
  have hne' : papers' ≠ [] := fun e => hne (by rw [e] at h1; exact h1.nil_eq.symm ▸ rfl)
  show Model.Scopus.writeFile (papers'.map toRec) = _
  have hw : ∀ ps : List Paper, (∀ p ∈ ps, PaperOk p) → ∃ ts, (ps.map toRec).mapM Model.Scopus.writeRecord = some ts ∧
      (ts.map (· ++ ['\n'])).flatten = (ps.map requote).flatMap lineText := by
    intro ps
    induction ps with
    | nil => intro _; exact ⟨[], rfl, rfl⟩
    | cons p ps ih =>
      intro hps
      obtain ⟨ts, t1, t2⟩ := ih (fun q hq => hps q (List.mem_cons_of_mem _ hq))
      obtain ⟨t, ht, e⟩ := Option.map_eq_some_iff.1 (written_line (hps p (by simp)))
      refine ⟨t :: ts, ?_, ?_⟩
      · rw [List.map_cons, List.mapM_cons, ht, t1]; rfl
      · rw [List.map_cons, List.flatten_cons, t2, List.map_cons, List.flatMap_cons]
        exact congrArg (· ++ _) e
  obtain ⟨ts, t1, t2⟩ := hw papers' (fun p hp => hf.each p (h1.mem_iff.1 hp))
  unfold Model.Scopus.writeFile
  rw [if_neg (by simpa using hne'), t1, Option.map_some, t2, fileText_eq]
  rfl

theorem escape_plain (s : Str) (h : '"' ∉ s) : escape s = s := by
  induction s with
  | nil => rfl
  | cons c s ih =>
    simp only [List.mem_cons, not_or] at h
    unfold escape at ih ⊢
    rw [List.flatMap_cons, ih h.2, if_neg (fun e => h.1 e.symm)]
    rfl

theorem requote_ok {p : Paper} (h : PaperOk p) (hpl : Plain p) : PaperOk (requote p) where
  cells := by
    intro c hc
    obtain ⟨h1, h2, h3⟩ := h.cells c hc
    have hb := hpl.1 c hc
    unfold requote
    cases hpc : p c with
    | quoted v =>
      rw [hpc] at h1 h2 h3
      exact ⟨h1, h2, h3⟩
    | bare s =>
      rw [hpc] at h1 h2 h3
      have hs := hb s hpc
      have hv : (Cell.bare s).value.getD [] = s := by
        unfold Cell.value
        by_cases e : s = []
        · simp [e]
        · simp [e]
      rw [hv]
      refine ⟨⟨⟨s, (escape_plain s hs).symm⟩, fun hm => absurd hm h1.1⟩, ?_, ?_⟩
      · simpa [Cell.text] using h2
      · simpa [Cell.text] using h3
  number := ⟨_, rfl⟩

theorem requote_file {papers' : List Paper} (hf : FileOk papers) (hp : papers'.Perm papers) (hpl : ∀ p ∈ papers, Plain p) : FileOk (papers'.map requote) where
  each := by
    intro q hq
    obtain ⟨p, hp', rfl⟩ := List.mem_map.1 hq
    have := hp.mem_iff.1 hp'
    exact requote_ok (hf.each p this) (hpl p this)
  different := by
    have h1 : (papers'.map (fun p => (p "EID").value)).Nodup := (hp.map _).nodup_iff.2 hf.different
    rw [List.map_map]
    have : papers'.map ((fun p => (p "EID").value) ∘ requote) = papers'.map (fun p => (p "EID").value) := by
      apply List.map_congr_left
      intro p hp'
      obtain ⟨e, he⟩ := (hf.each p (hp.mem_iff.1 hp')).number
      show some ((p "EID").value.getD []) = (p "EID").value
      rw [he]; rfl
    rw [this]
    exact h1
  notWos := by
    intro q hq
    obtain ⟨p, hp', rfl⟩ := List.mem_map.1 (List.mem_of_mem_take hq)
    exact (hpl p (hp.mem_iff.1 hp')).2
  notMedline := by
    intro q hq hpre
    obtain ⟨p, hp', rfl⟩ := List.mem_map.1 (List.mem_of_mem_head? hq)
    have : lineText (requote p) = '"' :: (lineText (requote p)).drop 1 := rfl
    rw [this] at hpre
    obtain ⟨t, ht⟩ := hpre
    exact absurd (List.cons.inj ht).1 (by decide)

/-- What a column lists after writing: a column that listed nothing lists one thing without a name. -/
def relisted (l : List Str) : List Str := if l = [] then [[]] else l

theorem relists {sep : String} (hsep : sep.toList ≠ []) {p : Paper} {c : String} {l : List Str} (h : Lists sep (p c) l) : Lists sep (requote p c) (relisted l) := by
  rcases h with ⟨h1, rfl⟩ | ⟨h1, h2, h3⟩
  · refine .inr ⟨by simp [relisted], by show some ((p c).value.getD []) = _; rw [h1]; rfl, ?_⟩
    intro x hx
    rw [show x = [] by simpa [relisted] using hx, List.infix_nil]
    exact hsep
  · unfold relisted
    rw [if_neg h1]
    exact .inr ⟨h1, by show some ((p c).value.getD []) = _; rw [h2]; rfl, h3⟩

/-- A cell of a column lists one thing only. -/
theorem lists_unique (P : Verif.Model.WosFields.Prims) {c sep : String} (hc : (c, sep) ∈ listColumns) {cell : Cell} {l m : List Str} (h : Lists sep cell l) (h' : Lists sep cell m) :
    l = m := by
  rcases h with ⟨h1, rfl⟩ | ⟨h1, h2, h3⟩ <;> rcases h' with ⟨h1', rfl⟩ | ⟨h1', h2', h3'⟩
  · rfl
  · rw [h1] at h2'; cases h2'
  · rw [h2] at h1'; cases h1'
  · rw [h2] at h2'
    have e := Option.some.inj h2'
    have e1 := list_value P c sep hc l h1 h3
    rw [e, list_value P c sep hc m h1' h3'] at e1
    injection e1 with e1
    injection e1 with e1
    exact e1.symm

theorem lists_of (P : Verif.Model.WosFields.Prims) {papers' : List Paper} {c sep : String} (hc : (c, sep) ∈ listColumns) (items : Paper → List Str)
    (hi : ∀ p ∈ papers', Lists sep (p c) (items p)) :
    ∃ of : Paper → List Str, (∀ q ∈ papers'.map requote, Lists sep (q c) (of q)) ∧ ∀ p ∈ papers', of (requote p) = relisted (items p) := by
  classical
  have hsep : sep.toList ≠ [] := by
    have : ∀ q ∈ listColumns, q.2.toList ≠ [] := by decide +kernel
    exact this _ hc
  have hex : ∀ q ∈ papers'.map requote, ∃ l, Lists sep (q c) l := by
    intro q hq
    obtain ⟨p, hp, rfl⟩ := List.mem_map.1 hq
    exact ⟨_, relists hsep (hi p hp)⟩
  refine ⟨fun q => if hq : ∃ l, Lists sep (q c) l then hq.choose else [], fun q hq => ?_, fun p hp => ?_⟩
  · show Lists sep (q c) (if hq : ∃ l, Lists sep (q c) l then hq.choose else [])
    rw [dif_pos (hex q hq)]
    exact (hex q hq).choose_spec
  · have hq := hex (requote p) (List.mem_map_of_mem hp)
    show (if hq : ∃ l, Lists sep (requote p c) l then hq.choose else []) = _
    rw [dif_pos hq]
    exact lists_unique P hc hq.choose_spec (relists hsep (hi p hp))

theorem pairs_single {ν : Type} [DecidableEq ν] (x a b : ν) : pairsShared [x] a b = 0 := by
  unfold pairsShared
  by_cases e : a = b
  · rw [if_pos e]
    by_cases h : x = a
    · subst h; simp
    · rw [List.count_eq_zero.2 (by simpa using fun e => h e.symm)]; rfl
  · rw [if_neg e]
    by_cases h : x = a
    · rw [List.count_eq_zero (a := b) |>.2 (by simpa using fun e' => e (h.symm.trans e'.symm))]; rfl
    · rw [List.count_eq_zero (a := a) |>.2 (by simpa using fun e => h e.symm)]; simp

theorem pairs_relisted (l : List Str) (a b : Str) : pairsShared (relisted l) a b = pairsShared l a b := by
  unfold relisted
  by_cases h : l = []
  · rw [if_pos h, h, pairs_single]
    unfold pairsShared
    simp
  · rw [if_neg h]

theorem count_relisted (l : List Str) (a : Str) (h : a ≠ [] ∨ l ≠ []) : (relisted l).count a = l.count a := by
  unfold relisted
  by_cases e : l = []
  · rw [if_pos e, e]
    rw [List.count_eq_zero.2 (by simpa using h.resolve_right (fun x => x e))]
    rfl
  · rw [if_neg e]

/-- **C110, written and read again.** The network of a column of lists made from the file that `writeFile` writes for the collection: it has the same edges as the one
made from the first file, and the same nodes with the same counts but for the node of the empty name; when every paper has something in the column, that one is the
same too. -/
theorem C110_reread_partial {order' : List Model.Scopus.Rec → List Model.Scopus.Rec} (ho : ∀ rs, (order rs).Perm rs) (ho' : ∀ rs, (order' rs).Perm rs)
    (hf : FileOk papers) (hne : papers ≠ []) (hpl : ∀ p ∈ papers, Plain p) (c sep k : String) (hc : (c, sep) ∈ listColumns) (hk : NameOf c k)
    (items : Paper → List Str) (hi : ∀ p ∈ papers, Lists sep (p c) (items p)) (nodeCount edgeWeight : Bool) :
    ∃ text g g', rewritten order (fileText papers) = some text ∧ oneMode W before order k nodeCount edgeWeight (fileText papers) = some (.ok g) ∧
      oneMode W before order' k nodeCount edgeWeight text = some (.ok g') ∧ (∀ a b, g'.edge? a b = g.edge? a b) ∧
      ∀ a, a ≠ [] ∨ (∀ p ∈ papers, items p ≠ []) → g'.node? a = g.node? a := by
  obtain ⟨papers', h1, h2⟩ := C110_rewritten ho hf hne
  obtain ⟨of, hlist, hof⟩ := lists_of W.prims hc (papers' := papers') items (fun p hp => hi p (h1.mem_iff.1 hp))
  obtain ⟨g, g1, g2, g3⟩ := C109_terms (W := W) before ho hf c sep k hc hk items hi nodeCount edgeWeight
  obtain ⟨g', g1', g2', g3'⟩ := C109_terms (W := W) before ho' (requote_file hf h1 hpl) c sep k hc hk of hlist nodeCount edgeWeight
  have hsum : ∀ f : List Str → Nat, (∀ p ∈ papers, f (relisted (items p)) = f (items p)) →
      ((papers'.map requote).map (fun q => f (of q))).sum = (papers.map (fun p => f (items p))).sum := by
    intro f hfe
    rw [List.map_map, ← (h1.map (fun p => f (items p))).sum_nat]
    exact congrArg _ (List.map_congr_left (fun p hp => by show f (of (requote p)) = _; rw [hof p hp, hfe p (h1.mem_iff.1 hp)]))
  refine ⟨_, g, g', h2, g1, g1', fun a b => ?_, fun a h => ?_⟩
  · rw [g2', g2]
    exact congrArg _ (hsum (fun l => pairsShared l a b) (fun p _ => pairs_relisted _ a b))
  · rw [g3' a _ rfl, g3 a _ rfl]
    rw [hsum (fun l => l.count a) (fun p hp => count_relisted _ a (h.imp id (fun h => h p hp)))]

/-- **C110, disagreement.** Written and read again, a paper without authors has an author without a name: the network of co-authors has a node for it. -/
theorem C110_reread_wrong {order' : List Model.Scopus.Rec → List Model.Scopus.Rec} (ho : ∀ rs, (order rs).Perm rs) (ho' : ∀ rs, (order' rs).Perm rs)
    (hf : FileOk papers) (hpl : ∀ p ∈ papers, Plain p) (authors : Paper → List Str) (ha : ∀ p ∈ papers, Lists ", " (p "Authors") (authors p))
    (hnamed : ∀ p ∈ papers, [] ∉ authors p) (p : Paper) (hp : p ∈ papers) (hnone : authors p = []) (useShort weighted count : Bool) :
    ∃ text g g', rewritten order (fileText papers) = some text ∧ coAuthors W before order useShort weighted count (fileText papers) = some (.ok g) ∧
      g.hasNode [] = false ∧ coAuthors W before order' useShort weighted count text = some (.ok g') ∧ g'.hasNode [] = true := by
  obtain ⟨papers', h1, h2⟩ := C110_rewritten ho hf (List.ne_nil_of_mem hp)
  obtain ⟨g, g1, _, g3⟩ := C109_coauthors (W := W) before ho hf authors ha useShort weighted count
  obtain ⟨of, hlist, hof⟩ := lists_of W.prims (c := "Authors") (sep := ", ") (by decide) (papers' := papers') authors (fun p hp => ha p (h1.mem_iff.1 hp))
  obtain ⟨g', g1', _, g3'⟩ := C109_coauthors (W := W) before ho' (requote_file hf h1 hpl) of hlist useShort weighted count
  refine ⟨_, g, g', h2, g1, ?_, g1', (g3' []).2 ⟨requote p, List.mem_map_of_mem (h1.mem_iff.2 hp), ?_⟩⟩
  · rw [Bool.eq_false_iff]
    intro h
    obtain ⟨q, hq, hm⟩ := (g3 []).1 h
    exact hnamed q hq hm
  · rw [hof p (h1.mem_iff.2 hp), hnone]
    simp [relisted]

theorem mapM_error {α β : Type} (f : α → Except AErr β) (l : List α) (x : α) (hx : x ∈ l) (hok : ∀ y ∈ l, ∀ e, f y = .error e → e = .other)
    (h : f x = .error .other) : l.mapM f = .error .other := by
  induction l with
  | nil => cases hx
  | cons y l ih =>
    rw [List.mapM_cons]
    cases hy : f y with
    | error e => rw [hok y (by simp) e hy]; rfl
    | ok v =>
      have : x ∈ l := by
        rcases List.mem_cons.1 hx with rfl | h'
        · rw [h] at hy; cases hy
        · exact h'
      rw [ih this (fun z hz => hok z (List.mem_cons_of_mem _ hz))]
      rfl

/-- **C110, disagreement.** Written and read again, a paper without a year makes `rankedSeries('year')` raise an exception; before it was left out. -/
theorem C110_reread_years_wrong {order' : List Model.Scopus.Rec → List Model.Scopus.Rec} (ho : ∀ rs, (order rs).Perm rs) (ho' : ∀ rs, (order' rs).Perm rs)
    (hf : FileOk papers) (hpl : ∀ p ∈ papers, Plain p) (hint : ∀ n : Nat, W.prims.int (showNat n) = some (n : Int)) (hempty : W.prims.int [] = none)
    (year : Paper → Option Nat) (hy : ∀ p ∈ papers, (p "Year").value = (year p).map showNat) (p : Paper) (hp : p ∈ papers) (hnone : year p = none)
    (k : String) (hk : NameOf "Year" k) (gf : Bool) :
    ∃ text l, rewritten order (fileText papers) = some text ∧ ranked W before order k true false gf false none (fileText papers) = some (.ok (.ok l)) ∧
      ranked W before order' k true false gf false none text = some (.error .other) := by
  obtain ⟨papers', h1, h2⟩ := C110_rewritten ho hf (List.ne_nil_of_mem hp)
  obtain ⟨l, l1, _⟩ := C109_years (W := W) before ho hf hint year hy k hk gf
  refine ⟨_, _, h2, l1, ?_⟩
  unfold ranked
  rw [records_eq order' (requote_file hf h1 hpl)]
  simp only [Option.map_some]
  have hval : ∀ q ∈ papers', value W before k (toRec (requote q)) = match year q with | none => .error .other | some y => .ok (some (.num y)) := by
    intro q hq
    have hq' := h1.mem_iff.1 hq
    rw [value_eq W before (requote_ok (hf.each q hq') (hpl q hq')) "Year" k (by decide) hk]
    have hrv : (requote q "Year").value = some ((year q).elim [] showNat) := by
      show some ((q "Year").value.getD []) = _
      rw [hy q hq']
      cases year q <;> rfl
    unfold direct
    rw [hrv]
    simp only [cls, OtherFields.kind_of W.prims (show scopusKinds.get? "Year".toList = some .integer by decide), processScopus]
    cases year q with
    | none => simp only [Option.elim, hempty]; rfl
    | some y => simp only [Option.elim, hint]; rfl
  rw [mapM_error (value W before k) _ (toRec (requote p)) ((ho' _).mem_iff.2 (List.mem_map_of_mem (List.mem_map_of_mem (h1.mem_iff.2 hp)))) ?_ ?_]
  · rfl
  · intro r hr e he
    obtain ⟨q, hq, rfl⟩ := List.mem_map.1 ((ho' _).mem_iff.1 hr)
    obtain ⟨q', hq', rfl⟩ := List.mem_map.1 hq
    rw [hval q' hq'] at he
    cases hyq : year q' with
    | none => rw [hyq] at he; exact (Except.error.inj he).symm
    | some y => rw [hyq] at he; cases he
  · rw [hval p (h1.mem_iff.2 hp), hnone]

end

/-! ## A file of three papers

The third has no authors, no year and no keywords. -/

def w : World where
  prims := WosFields.ascii
  chars := CiteParse.ascii
  truthy _ := true
  fin _ := .error .other

def paper (l : List (String × Cell)) : Paper := fun c => (l.find? (fun e => decide (e.1 = c))).elim (.bare []) Prod.snd

def file : List Paper :=
  [paper [("Authors", .quoted "Ada A., Bob B., Cy C.".toList), ("Title", .quoted "One, and two".toList), ("Year", .bare "2001".toList),
     ("Index Keywords", .quoted "ants; bees".toList), ("References", .quoted "Smith J., A Title, (1990) J. Stat., 1; Jones K., (1991) Nature".toList),
     ("EID", .quoted "11".toList)],
   paper [("Authors", .quoted "Bob B., Ada A.".toList), ("Year", .bare "2001".toList), ("Index Keywords", .bare "bees".toList),
     ("References", .quoted "Jones K., (1991) Nature".toList), ("EID", .bare "12".toList)],
   paper [("EID", .bare "13".toList)]]

theorem cell_ok (cell : Cell) (h : (match cell with
    | .bare s => decide (',' ∉ s ∧ s.getLast? ≠ some '"')
    | .quoted v => decide ('"' ∉ v ∧ v.head? ≠ none ∧ ∀ c ∈ v.head?, c ∉ ['"', ',', '|', '$'])) = true) : cell.Ok := by
  cases cell with
  | bare s => exact of_decide_eq_true (p := ',' ∉ s ∧ s.getLast? ≠ some '"') h
  | quoted v =>
    obtain ⟨h1, h2, h3⟩ := of_decide_eq_true h
    refine ⟨⟨v, (escape_plain v h1).symm⟩, fun _ => ?_⟩
    cases v with
    | nil => exact absurd rfl h2
    | cons c t => exact ⟨0, c, t, rfl, h3 c rfl⟩

private theorem file_cells : ∀ p ∈ file, ∀ c ∈ columns, (match p c with
    | .bare s => decide (',' ∉ s ∧ s.getLast? ≠ some '"')
    | .quoted v => decide ('"' ∉ v ∧ v.head? ≠ none ∧ ∀ c ∈ v.head?, c ∉ ['"', ',', '|', '$'])) = true ∧ '\n' ∉ (p c).text ∧ '\r' ∉ (p c).text := by
  decide +kernel

private theorem not_infix {x y : Str} (h : Str.contains x y = false) : ¬ x <:+: y := fun hi => by rw [(Str.contains_iff _ _).2 hi] at h; cases h

theorem file_ok : FileOk file where
  each p hp := {
    cells := fun c hc => ⟨cell_ok _ (file_cells p hp c hc).1, (file_cells p hp c hc).2⟩
    number := by
      have : ∀ p ∈ file, (p "EID").value ≠ none := by decide +kernel
      cases h : (p "EID").value with
      | none => exact absurd h (this p hp)
      | some e => exact ⟨e, rfl⟩ }
  different := by decide +kernel
  notWos := by
    have : ∀ p ∈ file, Str.contains "VR 1.0".toList (lineText p) = false := by decide +kernel
    exact fun p hp => not_infix (this p (List.mem_of_mem_take hp))
  notMedline := by
    have : ∀ p ∈ file, ¬ "PMID- ".toList <+: lineText p := by decide +kernel
    exact fun p hp => this p (List.mem_of_mem_head? hp)

theorem file_plain : ∀ p ∈ file, Plain p := by
  intro p hp
  refine ⟨fun c hc s hs => ?_, ?_⟩
  · have : ∀ p ∈ file, ∀ c ∈ columns, (match p c with | .bare s => decide ('"' ∉ s) | _ => true) = true := by decide +kernel
    have h := this p hp c hc
    rw [hs] at h
    exact of_decide_eq_true h
  · have : ∀ p ∈ file, Str.contains "VR 1.0".toList (lineText (requote p)) = false := by decide +kernel
    exact not_infix (this p hp)

def listed (c : String) (sep : Str) (p : Paper) : List Str := ((p c).value.map (Str.split sep)).getD []

theorem lists_listed {sep c : String} (h : ∀ p ∈ file, (p c).value = none ∨ ((p c).value = some (sep.toList.intercalate (listed c sep.toList p)) ∧
    listed c sep.toList p ≠ [] ∧ ∀ x ∈ listed c sep.toList p, Str.contains sep.toList x = false)) : ∀ p ∈ file, Lists sep (p c) (listed c sep.toList p) := by
  intro p hp
  rcases h p hp with h1 | ⟨h1, h2, h3⟩
  · exact .inl ⟨h1, by unfold listed; rw [h1]; rfl⟩
  · exact .inr ⟨h2, h1, fun x hx => not_infix (h3 x hx)⟩

theorem authors_ok : ∀ p ∈ file, Lists ", " (p "Authors") (listed "Authors" ", ".toList p) := lists_listed (by decide +kernel)
theorem keywords_ok : ∀ p ∈ file, Lists "; " (p "Index Keywords") (listed "Index Keywords" "; ".toList p) := lists_listed (by decide +kernel)
private theorem references_ok : ∀ p ∈ file, Lists "; " (p "References") (listed "References" "; ".toList p) := lists_listed (by decide +kernel)

example := C109_reading (W := w) (fun _ => [.item "Title", .mem "Abstract"]) List.reverse_perm file_ok

example : ∃ g, coAuthors w (fun _ => [.item "year", .mem "Authors"]) List.reverse false true true (fileText file) = some (.ok g) ∧
    g.edge? "Ada A.".toList "Bob B.".toList = some (some 2) ∧ g.edge? "Bob B.".toList "Cy C.".toList = some (some 1) := by
  obtain ⟨g, h1, h2⟩ := C109_coauthors_papers (W := w) (fun _ => [.item "year", .mem "Authors"]) List.reverse_perm file_ok _ authors_ok (by decide +kernel) false true
  exact ⟨g, h1, h2 _ _ (by decide) 2 (by decide +kernel), h2 _ _ (by decide) 1 (by decide +kernel)⟩

example : ∃ g, coAuthors w (fun _ => []) List.reverse true true true (fileText file) = some (.ok g) ∧ g.hasNode "Cy C.".toList = true ∧ g.hasNode [] = false := by
  obtain ⟨g, h1, _, h3⟩ := C109_coauthors (W := w) (fun _ => []) List.reverse_perm file_ok _ authors_ok true true true
  exact ⟨g, h1, (h3 _).2 (by decide +kernel), Bool.eq_false_iff.2 (fun h => absurd ((h3 _).1 h) (by decide +kernel))⟩

private theorem int_show (n : Nat) : w.prims.int (showNat n) = some (n : Int) := by
  obtain ⟨h1, h2, h3⟩ := showAux_spec (n + 1) n (by omega)
  show (if (!(showNat n).isEmpty && (showNat n).all isDig) = true then some ((readNat (showNat n) : Nat) : Int) else none) = _
  rw [if_pos, readNat_showNat]
  have h4 : (showNat n).all isDig = true := List.all_eq_true.2 h2
  have h5 : (showNat n).isEmpty = false := by
    have : showNat n ≠ [] := h3
    simpa using this
  rw [h4, h5]; rfl

private theorem years_ok : ∀ p ∈ file, (p "Year").value = (if (p "Year").value = none then none else some 2001).map showNat := by decide +kernel

example : ∃ l : List (Nat × Nat), ranked w (fun _ => []) List.reverse "year" true false true false none (fileText file) =
    some (.ok (.ok (.pairs (l.map (fun e => (SVal.num e.1, e.2)))))) ∧ (2001, 2) ∈ l := by
  obtain ⟨l, h1, _, h3, _⟩ := C109_years (W := w) (fun _ => []) List.reverse_perm file_ok int_show _ years_ok "year" (.inr (by decide)) true
  exact ⟨l, h1, (h3 _ _).2 (by decide +kernel)⟩

example : ∃ l : List (Str × Nat), ranked w (fun _ => []) List.reverse "keywords" true false true false none (fileText file) =
    some (.ok (.ok (.pairs (l.map (fun e => (SVal.text e.1, e.2)))))) ∧ ("bees".toList, 2) ∈ l ∧ ("ants".toList, 1) ∈ l := by
  obtain ⟨l, h1, _, h3, _⟩ := C109_ranked (W := w) (fun _ => []) List.reverse_perm file_ok "Index Keywords" "; " "keywords" (by decide) (.inr (by decide)) _
    keywords_ok true
  exact ⟨l, h1, (h3 _ _).2 (by decide +kernel), (h3 _ _).2 (by decide +kernel)⟩

example : ∃ g, oneMode w (fun _ => [.item "keywords"]) List.reverse "Index Keywords" true true (fileText file) = some (.ok g) ∧
    g.edge? "ants".toList "bees".toList = some (some 1) ∧ g.node? "bees".toList = some ⟨some 2, none⟩ := by
  obtain ⟨g, h1, h2, h3⟩ := C109_terms (W := w) (fun _ => [.item "keywords"]) List.reverse_perm file_ok "Index Keywords" "; " "Index Keywords" (by decide)
    (.inl rfl) _ keywords_ok true true
  exact ⟨g, h1, (h2 _ _).trans (by decide +kernel), h3 _ 2 (by decide +kernel)⟩

example : ∃ g, coCitations w (fun _ => []) List.reverse ⟨id, fun _ => true, fun _ => 0⟩ ⟨.original, false, false, .none, false, true, true⟩
    (fun _ => ⟨[], [], none, none, none, none, none, none, false⟩) (fileText file) = some (.ok (.ok g)) ∧
    g.edge? (.str "Smith J., A Title, (1990) J. Stat., 1".toList) (.str "Jones K., (1991) Nature".toList) = some (some 1) := by
  obtain ⟨g, h1, h2, _⟩ := C109_cocitation_entries (W := w) (fun _ => []) List.reverse_perm file_ok _ references_ok ⟨id, fun _ => true, fun _ => 0⟩
    (fun _ => ⟨[], [], none, none, none, none, none, none, false⟩) true true
  exact ⟨g, h1, (h2 _ _).trans (by decide +kernel)⟩

example := C109_cocitation (W := w) (fun _ => []) List.reverse_perm file_ok _ references_ok ⟨id, fun _ => true, fun _ => 0⟩
    (fun _ => ⟨[], [], none, none, none, none, none, none, false⟩) ⟨.full, false, false, .none, false, true, true⟩ rfl (.inl rfl)

example := C110_rewritten (order := List.reverse) List.reverse_perm file_ok (by decide)

example := C110_reread_partial (W := w) (order := List.reverse) (order' := id) (fun _ => []) List.reverse_perm (fun _ => .refl _) file_ok (by decide) file_plain
  "Index Keywords" "; " "keywords" (by decide) (.inr (by decide)) _ keywords_ok true true

example := C110_reread_wrong (W := w) (order := List.reverse) (order' := id) (fun _ => []) List.reverse_perm (fun _ => .refl _) file_ok file_plain
  _ authors_ok (by decide +kernel) (paper [("EID", .bare "13".toList)]) (by simp [file]) (by decide +kernel) false true true

example := C110_reread_years_wrong (W := w) (order := List.reverse) (order' := id) (fun _ => []) List.reverse_perm (fun _ => .refl _) file_ok file_plain int_show
  (by decide +kernel) _ years_ok (paper [("EID", .bare "13".toList)]) (by simp [file]) (by decide +kernel) "year" (.inr (by decide)) true

end Verif.Props.ScopusPipeline
