import Verif.Lemmas.MedlinePipeline
import Verif.Props.Pipeline

/-! # C108: from a Medline file to networks and tables -/
set_option autoImplicit false
set_option linter.unusedSimpArgs false
namespace Verif.Props.MedlinePipeline
open Verif.Py Verif.Model.MedlineFields Verif.Model.WosFields Verif.Model.RecordAccess Verif.Model.MedlinePipeline Verif.Spec.MedlinePipeline Verif.Spec
  Verif.Lemmas.MedlinePipeline Verif.Props.Pipeline
open Verif.Model.Series

/-- What is assumed about Python: line end and space are white space and no letter is; and a set is gone through in some order. -/
structure Setting (W : World) (order : List Model.Medline.Rec → List Model.Medline.Rec) : Prop where
  classes : Spec.Medline.Classes W.ws W.alpha
  perm : ∀ rs, (order rs).Perm rs

section
variable {W : World} {order : List Model.Medline.Rec → List Model.Medline.Rec} (before : Model.Medline.Rec → List (Op String PVal)) {papers : List Paper}

theorem sum_order (h : Setting W order) (f : Model.Medline.Rec → Nat) : ((order (papers.map toRec)).map f).sum = (papers.map (fun p => f (toRec p))).sum := by
  rw [((h.perm (papers.map toRec)).map f).sum_nat, List.map_map]; rfl

theorem of_order (h : Setting W order) (hf : FileOk W.alpha papers) {r : Model.Medline.Rec} (hr : r ∈ order (papers.map toRec)) :
    ∃ p ∈ papers, PaperOk W.alpha p ∧ r = toRec p := by
  obtain ⟨p, hp, rfl⟩ := List.mem_map.1 ((h.perm _).mem_iff.1 hr)
  exact ⟨p, hp, hf.each p hp, rfl⟩

theorem getD_ite (l : List Str) : (if l = [] then none else some l).getD [] = l := by
  by_cases h : l = []
  · rw [if_pos h, h]; rfl
  · rw [if_neg h]; rfl

theorem notAttached {tag : String} (h : ListTag tag) : tag.toList ∉ Spec.Medline.attachedTags := by
  intro hm
  have : tag ∈ ["AD", "AUID"] := by
    have : tag.toList ∈ ["AD", "AUID"].map String.toList := hm
    obtain ⟨s, hs, e⟩ := List.mem_map.1 this
    rw [← String.toList_inj.1 e]; exact hs
  exact h (by simp at this ⊢; tauto)

theorem direct_list (p : Paper) {tag long : String} (hw : TagTable.Medline tag.toList long.toList) (ht : ListTag tag) :
    direct W p tag = if valuesOf p tag = [] then .error .keyError else .ok (.field (.texts (valuesOf p tag))) := by
  unfold direct
  split
  · rfl
  · have hk : medlineKinds.get? tag.toList = some .whole := by
      have hall : ∀ t ∈ Verif.Model.TagNames.medlineTags.map Prod.snd,
          t ∉ ["PG", "VI", "DP", "TI", "OTO", "AB", "TA", "JT", "PMID", "AD", "AUID", "GR"].map String.toList →
          medlineKinds.get? t = some .whole := by decide +kernel
      refine hall _ (List.mem_map.2 ⟨_, (Verif.Props.mem_medline _ _).2 hw, rfl⟩) (fun hm => ht ?_)
      obtain ⟨s, hs, e⟩ := List.mem_map.1 hm
      rw [← String.toList_inj.1 e]; exact hs
    simp only [cls, hk]; rfl

theorem list_value {p : Paper} (hp : PaperOk W.alpha p) {tag k : String} (hk : NameOf tag k) (ht : ListTag tag) :
    value W before k (toRec p) = .ok (if valuesOf p tag = [] then none else some (.field (.texts (valuesOf p tag)))) := by
  obtain ⟨long, hw, hk⟩ := hk
  have hd := direct_list (W := W) p hw ht
  have key : value W before k (toRec p) = lift (direct W p tag) := by
    rcases hk with hk | hk | hk
    · exact value_tag W before hp tag long k hw (notAttached ht) (.inl hk)
    · exact value_tag W before hp tag long k hw (notAttached ht) (.inr hk)
    · have : (k, tag) ∈ medlineReads := by
        simp only [List.mem_cons, Prod.mk.injEq, List.not_mem_nil, or_false] at hk
        rcases hk with ⟨rfl, rfl⟩ | ⟨rfl, rfl⟩ | ⟨rfl, rfl⟩ <;> decide
      rw [value_common W before hp tag long k hw (notAttached ht) this, hd]
      by_cases hl : valuesOf p tag = []
      · rw [if_pos hl]
      · rw [if_neg hl]
        have : k ≠ "DOI" := by
          rintro rfl
          simp only [List.mem_cons, Prod.mk.injEq, List.not_mem_nil, or_false] at hk
          rcases hk with ⟨e, _⟩ | ⟨e, _⟩ | ⟨e, _⟩ <;> exact absurd e (by decide)
        simp only [post, if_neg this]
  rw [key, hd]
  by_cases hl : valuesOf p tag = []
  · rw [if_pos hl, if_pos hl]; rfl
  · rw [if_neg hl, if_neg hl]; rfl

/-- The collection holds one record for each paper. Under each of the names of a tag the record gives the values that stand in the file, in their order, and nothing
when there are none, whatever was read of it before. -/
theorem C108_reading (h : Setting W order) (hf : FileOk W.alpha papers) : ∃ (rs : List Model.Medline.Rec) (of : Model.Medline.Rec → Paper),
    records W order (fileText papers) = some rs ∧ (rs.map of).Perm papers ∧ ∀ r ∈ rs,
      r.id = some ("PMID:".toList ++ (valuesOf (of r) "PMID").headD []) ∧
      ∀ tag k : String, NameOf tag k → ListTag tag →
        value W before k r = .ok (if valuesOf (of r) tag = [] then none else some (.field (.texts (valuesOf (of r) tag)))) := by
  classical
  have hinj : ∀ p ∈ papers, ∀ q ∈ papers, toRec p = toRec q → p = q := by
    intro p hp q hq e
    by_contra hne
    have := distinct hf
    have hid : (toRec p).id = (toRec q).id := by rw [e]
    exact hne (List.inj_on_of_nodup_map this hp hq hid)
  let of : Model.Medline.Rec → Paper := fun r => if hr : ∃ p ∈ papers, toRec p = r then hr.choose else []
  have hof : ∀ p ∈ papers, of (toRec p) = p := by
    intro p hp
    have hr : ∃ q ∈ papers, toRec q = toRec p := ⟨p, hp, rfl⟩
    show (if hr : ∃ q ∈ papers, toRec q = toRec p then hr.choose else []) = p
    rw [dif_pos hr]
    exact hinj _ hr.choose_spec.1 _ hp hr.choose_spec.2
  refine ⟨_, of, records_eq W order h.classes hf, ?_, ?_⟩
  · have := (h.perm (papers.map toRec)).map of
    rw [List.map_map] at this
    refine this.trans (List.Perm.of_eq ?_)
    conv => rhs; rw [← List.map_id papers]
    exact List.map_congr_left (fun p hp => hof p hp)
  · intro r hr
    obtain ⟨p, hp, hpok, rfl⟩ := of_order h hf hr
    rw [hof p hp]
    exact ⟨rfl, fun tag k hk ht => list_value before hpok hk ht⟩

/-- **C108, co-authors.** The network of co-authors made from a Medline file: two names are joined as often as a paper lists both, over the papers, and the nodes are the
names listed. -/
theorem C108_coauthors (h : Setting W order) (hf : FileOk W.alpha papers) (useShort weighted count : Bool) :
    ∃ g, coAuthors W before order useShort weighted count (fileText papers) = some (.ok g) ∧
      (∀ a b, g.edge? a b = edgeFor weighted (papers.map (fun p => pairsShared (valuesOf p (if useShort then "AU" else "FAU")) a b)).sum) ∧
      ∀ a, g.hasNode a = true ↔ ∃ p ∈ papers, a ∈ valuesOf p (if useShort then "AU" else "FAU") := by
  obtain ⟨of, hof⟩ : ∃ of : Model.Medline.Rec → List Str, ∀ p, of (toRec p) = valuesOf p (if useShort then "AU" else "FAU") :=
    ⟨fun r => (Dict.get? r.fields (if useShort then "AU" else "FAU" : String).toList).getD [], fun p => by
      have := get?_values p (if useShort then "AU" else "FAU") (by cases useShort <;> decide)
      show (Dict.get? (fieldsOf p) _).getD [] = _
      rw [this]
      exact getD_ite _⟩
  have hm : (order (papers.map toRec)).mapM (fun r => do Model.MedlinePipeline.names (← value W before (if useShort then "authorsShort" else "authorsFull") r)) =
      .ok ((order (papers.map toRec)).map of) := by
    apply Lemmas.Pipeline.mapM_ok
    intro r hr
    obtain ⟨p, hp, hpok, rfl⟩ := of_order h hf hr
    have hv : value W before (if useShort then "authorsShort" else "authorsFull") (toRec p) = _ :=
      list_value before hpok (tag := if useShort then "AU" else "FAU")
        (by cases useShort
            · exact ⟨"FullAuthor", by unfold TagTable.Medline; decide +kernel, by decide⟩
            · exact ⟨"Author", by unfold TagTable.Medline; decide +kernel, by decide⟩)
        (by unfold ListTag; cases useShort <;> decide)
    rw [hv, hof]
    by_cases hl : valuesOf p (if useShort then "AU" else "FAU") = []
    · rw [if_pos hl, hl]; rfl
    · rw [if_neg hl]; rfl
  unfold coAuthors
  rw [records_eq W order h.classes hf]
  simp only [Option.map_some]
  rw [hm]
  have hc := Verif.Props.C15_edges_nodes weighted false count (fun _ => true) id (fun _ => ()) ((order (papers.map toRec)).map of)
  have hk : keptRecs false (fun _ => true) ((order (papers.map toRec)).map of) = (order (papers.map toRec)).map of := by
    unfold keptRecs; simp
  rw [hk] at hc
  refine ⟨_, rfl, ?_, ?_⟩
  · intro a b
    refine (hc.2.2.1 a b).trans ?_
    rw [List.map_map]
    refine congrArg _ ((sum_order h (fun r => pairsShared (of r) a b)).trans ?_)
    simp only [hof]
  · intro a
    refine (hc.2.2.2 a).trans ?_
    constructor
    · rintro ⟨l, hl, ha⟩
      obtain ⟨r, hr, rfl⟩ := List.mem_map.1 hl
      obtain ⟨p, hp, _, rfl⟩ := of_order h hf hr
      exact ⟨p, hp, by rw [← hof]; exact ha⟩
    · rintro ⟨p, hp, ha⟩
      exact ⟨_, List.mem_map_of_mem ((h.perm _).mem_iff.2 (List.mem_map_of_mem hp)), by rw [hof]; exact ha⟩

/-- The same in words: when no paper lists a name twice, the weight between two different names is the number of papers that list both. -/
theorem C108_coauthors_papers (h : Setting W order) (hf : FileOk W.alpha papers) (useShort count : Bool)
    (hn : ∀ p ∈ papers, (valuesOf p (if useShort then "AU" else "FAU")).Nodup) :
    ∃ g, coAuthors W before order useShort true count (fileText papers) = some (.ok g) ∧ ∀ a b, a ≠ b → ∀ n : Nat,
      n = papers.countP (fun p => decide (a ∈ valuesOf p (if useShort then "AU" else "FAU") ∧ b ∈ valuesOf p (if useShort then "AU" else "FAU"))) →
      g.edge? a b = if n = 0 then none else some (some n) := by
  obtain ⟨g, h1, h2, _⟩ := C108_coauthors before h hf useShort true count
  refine ⟨g, h1, fun a b hab n hn' => ?_⟩
  have key : ∀ ps : List Paper, (∀ p ∈ ps, (valuesOf p (if useShort then "AU" else "FAU")).Nodup) →
      (ps.map (fun p => pairsShared (valuesOf p (if useShort then "AU" else "FAU")) a b)).sum =
        ps.countP (fun p => decide (a ∈ valuesOf p (if useShort then "AU" else "FAU") ∧ b ∈ valuesOf p (if useShort then "AU" else "FAU"))) := by
    intro ps
    induction ps with
    | nil => intro _; rfl
    | cons p ps ih =>
      intro hps
      rw [List.map_cons, List.sum_cons, ih (fun q hq => hps q (List.mem_cons_of_mem _ hq)), List.countP_cons, Nat.add_comm]
      congr 1
      rw [pairs_nodup (hps p (by simp)) hab]
      simp
  rw [h2 a b, key papers hn, ← hn']
  rfl

/-- `rankedSeries` of a file when the values are known. -/
theorem ranked_of (h : Setting W order) (hf : FileOk W.alpha papers) (tag : String) (gf : Bool) (val : Paper → Option PVal)
    (hv : ∀ p ∈ papers, value W before tag (toRec p) = .ok (val p)) :
    ∃ l : List (PVal × Nat), ranked W before order tag true false gf false none (fileText papers) = some (.ok (.ok (.pairs l))) ∧
      (l.map Prod.fst).Nodup ∧
      (∀ v n, (v, n) ∈ l ↔ n = (papers.map (fun p => (vals ((val p).map fieldVal)).count v)).sum ∧ 0 < n) ∧
      (gf = true → l.Pairwise (fun a b => b.2 ≤ a.2)) ∧ (gf = false → l.Pairwise (fun a b => a.2 ≤ b.2)) := by
  unfold ranked
  rw [records_eq W order h.classes hf]
  simp only [Option.map_some]
  have get : ∀ r ∈ order (papers.map toRec), ∃ v, value W before tag r = .ok v := by
    intro r hr
    obtain ⟨p, hp, _, rfl⟩ := of_order h hf hr
    exact ⟨_, hv p hp⟩
  let out : Model.Medline.Rec → Option PVal := fun r => match value W before tag r with | .ok v => v | .error _ => none
  have hout : ∀ p ∈ papers, out (toRec p) = val p := by
    intro p hp
    show (match value W before tag (toRec p) with | .ok v => v | .error _ => none) = _
    rw [hv p hp]
  have hm : (order (papers.map toRec)).mapM (value W before tag) = .ok ((order (papers.map toRec)).map out) := by
    apply Lemmas.Pipeline.mapM_ok
    intro r hr
    obtain ⟨v, hv'⟩ := get r hr
    show _ = Except.ok (match value W before tag r with | .ok v => v | .error _ => none)
    rw [hv']
  rw [hm]
  obtain ⟨l, h1, ⟨h2, h3⟩, h4, h5⟩ := Verif.Props.C09_counts (fun v : Option PVal => v.map fieldVal) ((order (papers.map toRec)).map out) gf none
  refine ⟨l, congrArg (fun x => some (Except.ok x)) h1, h2, fun v n => ?_, h4, h5⟩
  rw [h3 v n]
  unfold occurrences
  rw [List.map_map]
  have := sum_order (papers := papers) h (fun r => (vals ((out r).map fieldVal)).count v)
  have hmap : papers.map (fun p => (vals ((out (toRec p)).map fieldVal)).count v) = papers.map (fun p => (vals ((val p).map fieldVal)).count v) :=
    List.map_congr_left (fun p hp => by rw [hout p hp])
  rw [hmap] at this
  rw [← this]
  simp [Permitted, Function.comp_def]

/-- **C108, values ranked.** `rankedSeries` of a Medline file under any name of a tag of lists: each value once, with the number of times the papers have it, in the order of
these numbers. -/
theorem C108_ranked (h : Setting W order) (hf : FileOk W.alpha papers) (tag k : String) (hk : NameOf tag k) (ht : ListTag tag) (gf : Bool) :
    ∃ l : List (Str × Nat), ranked W before order k true false gf false none (fileText papers) =
        some (.ok (.ok (.pairs (l.map (fun e => (PVal.field (.text e.1), e.2)))))) ∧ (l.map Prod.fst).Nodup ∧
      (∀ a n, (a, n) ∈ l ↔ n = (papers.map (fun p => (valuesOf p tag).count a)).sum ∧ 0 < n) ∧
      (gf = true → l.Pairwise (fun a b => b.2 ≤ a.2)) ∧ (gf = false → l.Pairwise (fun a b => a.2 ≤ b.2)) := by
  obtain ⟨L, h1, h2, h3, h4, h5⟩ := ranked_of before h hf k gf (fun p => if valuesOf p tag = [] then none else some (.field (.texts (valuesOf p tag))))
    (fun p hp => list_value before (hf.each p hp) hk ht)
  have hvals : ∀ p : Paper, vals ((if valuesOf p tag = [] then none else some (PVal.field (.texts (valuesOf p tag)))).map fieldVal) =
      (valuesOf p tag).map (fun s => .field (.text s)) := by
    intro p
    by_cases hl : valuesOf p tag = []
    · rw [if_pos hl, hl]; rfl
    · rw [if_neg hl]; rfl
  simp only [hvals] at h3
  have inj : ∀ a b : Str, PVal.field (.text a) = .field (.text b) → a = b := fun a b e => by injection e with e; injection e
  obtain ⟨l, hl, e2, e3, e4, e5⟩ := retype (f := fun s : Str => PVal.field (.text s)) inj L h2 (fun v n hv => by
    obtain ⟨rfl, h0⟩ := (h3 v n).1 hv
    obtain ⟨p, _, hc⟩ := exists_pos h0
    obtain ⟨s, _, rfl⟩ := List.mem_map.1 (List.count_pos_iff.1 hc)
    exact ⟨s, rfl⟩)
  subst hl
  refine ⟨l, h1, e2, fun a n => ?_, fun g => e4 (h4 g), fun g => e5 (h5 g)⟩
  rw [← e3, h3]
  have : ∀ p : Paper, ((valuesOf p tag).map (fun s => PVal.field (.text s))).count (.field (.text a)) = (valuesOf p tag).count a :=
    fun p => List.count_map_of_injective _ (fun s : Str => PVal.field (.text s)) inj _
  simp only [this]

/-- **C108, years ranked.** `rankedSeries('year')` of a Medline file gives each year that occurs once, with the number of papers of that year. -/
theorem C108_years (h : Setting W order) (hf : FileOk W.alpha papers) (hint : ∀ n : Nat, W.prims.int (showNat n) = some (n : Int))
    (year : Paper → Option Nat) (hy : ∀ p ∈ papers, (year p = none ∧ valuesOf p "DP" = []) ∨ ∃ y, year p = some y ∧ OfYear p y) (gf : Bool) :
    ∃ l : List (Nat × Nat), ranked W before order "year" true false gf false none (fileText papers) =
        some (.ok (.ok (.pairs (l.map (fun e => (PVal.made (.num e.1), e.2)))))) ∧ (l.map Prod.fst).Nodup ∧
      (∀ y n, (y, n) ∈ l ↔ n = papers.countP (fun p => decide (year p = some y)) ∧ 0 < n) ∧
      (gf = true → l.Pairwise (fun a b => b.2 ≤ a.2)) ∧ (gf = false → l.Pairwise (fun a b => a.2 ≤ b.2)) := by
  have hblank : ∀ n : Nat, ' ' ∉ showNat n := by
    intro n hm
    have := (showAux_spec (n + 1) n (by omega)).2.1 _ hm
    exact absurd this (by decide)
  obtain ⟨L, h1, h2, h3, h4, h5⟩ := ranked_of before h hf "year" gf (fun p => (year p).map (fun y : Nat => PVal.made (.num (y : Int)))) (by
    intro p hp
    rw [value_common W before (hf.each p hp) "DP" "DatePublication" "year" (by unfold TagTable.Medline; decide +kernel) (by decide) (by decide)]
    rcases hy p hp with ⟨e, hl⟩ | ⟨y, e, tail, hhd, htl⟩
    · rw [e]
      unfold direct
      rw [if_pos hl]; rfl
    · rw [e]
      unfold direct
      cases hl : valuesOf p "DP" with
      | nil => rw [hl] at hhd; cases hhd
      | cons v rest =>
        rw [hl] at hhd
        obtain rfl : v = showNat y ++ tail := by simpa using hhd
        rw [if_neg (by simp)]
        have hp : (cls W).proc "DP" ((showNat y ++ tail) :: rest) = .ok (.field (.text (showNat y ++ tail))) := rfl
        rw [hp]
        have hyr := MedlineFields.C70_year W.prims W.dig [("DP".toList, [showNat y ++ tail])] (showNat y) tail y
          (MedlineFields.C70_first _ "DP".toList (by decide) _ [] rfl) (hblank y) htl (hint y)
        show lift (post W "year" (.field (.text (showNat y ++ tail)))) = _
        simp only [post, if_true, hyr]
        rfl)
  have hvals : ∀ p : Paper, ∀ y : Nat, (vals (((year p).map (fun y : Nat => PVal.made (.num (y : Int)))).map fieldVal)).count (.made (.num y)) = if year p = some y then 1 else 0 := by
    intro p y
    cases hyp : year p with
    | none => rfl
    | some z =>
      show [PVal.made (.num (z : Int))].count (.made (.num (y : Int))) = if some z = some y then 1 else 0
      simp only [Option.some.injEq]
      by_cases e : z = y
      · subst e; simp
      · rw [if_neg e, List.count_eq_zero]
        simp only [List.mem_cons, PVal.made.injEq, FVal.num.injEq, List.not_mem_nil, or_false]
        omega
  obtain ⟨l, hl, e2, e3, e4, e5⟩ := retype (f := fun y : Nat => PVal.made (.num y))
    (fun a b e => by injection e with e; injection e with e; exact Int.ofNat.inj e) L h2 (fun v n hv => by
      obtain ⟨rfl, h0⟩ := (h3 v n).1 hv
      obtain ⟨p, hp, hc⟩ := exists_pos h0
      have hm := List.count_pos_iff.1 hc
      cases hyp : year p with
      | none => rw [hyp] at hm; cases hm
      | some z =>
        rw [hyp] at hm
        exact ⟨z, List.mem_singleton.1 hm⟩)
  subst hl
  refine ⟨l, h1, e2, fun y n => ?_, fun g => e4 (h4 g), fun g => e5 (h5 g)⟩
  rw [← e3, h3]
  simp only [hvals]
  rw [sum_ite]

/-- **C108, terms.** The network of the terms of a Medline file (or of another tag of lists): two are joined as often as a paper has both, and each counts the papers that have it. -/
theorem C108_terms (h : Setting W order) (hf : FileOk W.alpha papers) (tag k : String) (hk : NameOf tag k) (ht : ListTag tag) (nodeCount edgeWeight : Bool) :
    ∃ g, oneMode W before order k nodeCount edgeWeight (fileText papers) = some (.ok g) ∧
      (∀ a b, g.edge? a b = edgeFor edgeWeight (papers.map (fun p => pairsShared (valuesOf p tag) a b)).sum) ∧
      ∀ a n, n = (papers.map (fun p => (valuesOf p tag).count a)).sum → g.node? a = if n = 0 then none else some ⟨if nodeCount then some n else none, none⟩ := by
  have ha := notAttached ht
  let items : Model.Medline.Rec → List Str := fun r => (Dict.get? r.fields tag.toList).getD []
  have hof : ∀ p, items (toRec p) = valuesOf p tag := by
    intro p
    have := get?_values p tag ha
    show (Dict.get? (fieldsOf p) _).getD [] = _
    rw [this]
    exact getD_ite _
  have hm : (order (papers.map toRec)).mapM (value W before k) =
      .ok ((order (papers.map toRec)).map (fun r => if items r = [] then none else some (.field (.texts (items r))))) := by
    apply Lemmas.Pipeline.mapM_ok
    intro r hr
    obtain ⟨p, hp, hpok, rfl⟩ := of_order h hf hr
    rw [list_value before hpok hk ht, hof]
  unfold oneMode
  rw [records_eq W order h.classes hf]
  simp only [Option.map_some]
  rw [hm]
  have hv : ∀ l : List Str, (vals ((if l = [] then none else some (PVal.field (.texts l))).map fieldVal)).map nodeText = l := by
    intro l
    by_cases hl : l = []
    · rw [if_pos hl, hl]; rfl
    · rw [if_neg hl]
      show (l.map (fun s => PVal.field (.text s))).map nodeText = l
      rw [List.map_map]; exact List.map_id l
  obtain ⟨c1, c2⟩ := Verif.Props.C12_one_mode nodeCount edgeWeight nodeText (fun (v : Option PVal) (_ : Unit) => v.map fieldVal) ()
    ((order (papers.map toRec)).map (fun r => if items r = [] then none else some (.field (.texts (items r)))))
  refine ⟨_, rfl, ?_, ?_⟩
  · intro a b
    refine (c1 a b).trans ?_
    have := sum_order (papers := papers) h (fun r => pairsShared (items r) a b)
    simp only [hof] at this
    simp only [List.map_map, Function.comp_def, hv]
    exact congrArg _ this
  · intro a n hn
    have hb : (instBEqOfDecidableEq : BEq Str) = List.instBEq := lawful_beq_subsingleton _ _
    have c2a := c2 a
    rw [hb] at c2a
    refine c2a.trans ?_
    have : n = (((order (papers.map toRec)).map (fun r => if items r = [] then none else some (PVal.field (.texts (items r))))).map
        (fun v => ((vals (v.map fieldVal)).map nodeText).count a)).sum := by
      have := sum_order (papers := papers) h (fun r => (items r).count a)
      simp only [hof] at this
      simp only [List.map_map, Function.comp_def, hv]
      exact hn.trans this.symm
    exact congrArg (fun m : Nat => if m = 0 then none else some (⟨if nodeCount then some m else none, none⟩ : Model.Networks.NodeAttr)) this.symm

end

/-! ## A file -/

def w : World where
  ws := MedlineFiles.asciiWs
  alpha := MedlineFiles.ascii
  dig := isDig
  prims := WosFields.ascii
  truthy _ := true
  fin _ := .error .other
  ident := .field (.text [])

def file : List Paper :=
  [[("PMID".toList, ["11".toList]), ("FAU".toList, ["Ada, A".toList]), ("AU".toList, ["Ada A".toList]), ("AD".toList, ["Here: and there".toList]),
    ("FAU".toList, ["Bob, B".toList]), ("TI".toList, ["A long".toList, "title".toList]), ("DP".toList, ["2001 Mar-Apr".toList]), ("MH".toList, ["Humans".toList]),
    ("MH".toList, ["Mice".toList])],
   [("PMID".toList, ["12".toList]), ("FAU".toList, ["Bob, B".toList]), ("FAU".toList, ["Ada, A".toList]), ("FAU".toList, ["Cy, C".toList]), ("DP".toList, ["2001".toList]),
    ("MH".toList, ["Mice".toList])],
   [("PMID".toList, ["13".toList])]]

theorem setting : Setting w List.reverse where
  classes := MedlineFiles.ascii_classes
  perm := List.reverse_perm

theorem file_ok : FileOk w.alpha file where
  some := by decide
  each := by
    intro p hp
    simp only [file, List.mem_cons, List.not_mem_nil, or_false] at hp
    rcases hp with rfl | rfl | rfl <;>
    exact {
      first := ⟨_, _, rfl⟩
      tags := by
        intro e he
        have : ∀ e ∈ file.flatten, (e.1 ≠ [] ∧ e.1.length ≤ 4 ∧ (∀ c ∈ e.1, w.alpha c = true)) ∧ '\n' ∉ e.1 ∧ '\r' ∉ e.1 := by decide +kernel
        obtain ⟨⟨a, b, c⟩, d, g⟩ := this e (List.mem_flatten.2 ⟨_, by simp [file], he⟩)
        exact ⟨⟨a, b, c⟩, d, g⟩
      reserved := by decide +kernel
      lines := by decide +kernel }
  different := by decide +kernel
  notWos := by
    have : ∀ p ∈ file, ∀ e ∈ p, Str.contains "VR 1.0".toList (entryText e) = false := by decide +kernel
    intro p hp e he hi
    have h1 := this p (List.mem_of_mem_head? hp) e he
    rw [(Str.contains_iff _ _).2 hi] at h1
    cases h1

example : ∃ g, coAuthors w (fun _ => [.item "year", .mem "FAU"]) List.reverse false true true (fileText file) = some (.ok g) ∧
    g.edge? "Ada, A".toList "Bob, B".toList = some (some 2) ∧ g.edge? "Bob, B".toList "Cy, C".toList = some (some 1) ∧ g.edge? "Ada, A".toList "Ada A".toList = none := by
  obtain ⟨g, h1, h2⟩ := C108_coauthors_papers (fun _ => [.item "year", .mem "FAU"]) setting file_ok false true (by decide +kernel)
  exact ⟨g, h1, h2 _ _ (by decide) 2 (by decide +kernel), h2 _ _ (by decide) 1 (by decide +kernel), h2 _ _ (by decide) 0 (by decide +kernel)⟩

example : ∃ g, coAuthors w (fun _ => []) List.reverse true true true (fileText file) = some (.ok g) ∧ g.hasNode "Ada A".toList = true ∧ g.hasNode "Ada, A".toList = false := by
  obtain ⟨g, h1, _, h3⟩ := C108_coauthors (fun _ => []) setting file_ok true true true
  exact ⟨g, h1, (h3 _).2 (by decide +kernel), Bool.eq_false_iff.2 (fun h => absurd ((h3 _).1 h) (by decide +kernel))⟩

theorem terms : NameOf "MH" "MeSHTerms" := ⟨"MeSHTerms", by unfold TagTable.Medline; decide +kernel, .inr (.inl rfl)⟩

example : ∃ g, oneMode w (fun _ => [.item "MH"]) List.reverse "MeSHTerms" true true (fileText file) = some (.ok g) ∧
    g.edge? "Humans".toList "Mice".toList = some (some 1) ∧ g.node? "Mice".toList = some ⟨some 2, none⟩ := by
  obtain ⟨g, h1, h2, h3⟩ := C108_terms (fun _ => [.item "MH"]) setting file_ok "MH" "MeSHTerms" terms (by unfold ListTag; decide) true true
  exact ⟨g, h1, (h2 _ _).trans (by decide +kernel), h3 _ 2 (by decide +kernel)⟩

example : ∃ l : List (Str × Nat), ranked w (fun _ => []) List.reverse "MeSHTerms" true false true false none (fileText file) =
    some (.ok (.ok (.pairs (l.map (fun e => (PVal.field (.text e.1), e.2)))))) ∧ ("Mice".toList, 2) ∈ l ∧ ("Humans".toList, 1) ∈ l := by
  obtain ⟨l, h1, _, h3, _⟩ := C108_ranked (fun _ => []) setting file_ok "MH" "MeSHTerms" terms (by unfold ListTag; decide) true
  exact ⟨l, h1, (h3 _ _).2 (by decide +kernel), (h3 _ _).2 (by decide +kernel)⟩

theorem int_show (n : Nat) : w.prims.int (showNat n) = some (n : Int) := by
  obtain ⟨h1, h2, h3⟩ := showAux_spec (n + 1) n (by omega)
  show (if (!(showNat n).isEmpty && (showNat n).all isDig) = true then some ((readNat (showNat n) : Nat) : Int) else none) = _
  rw [if_pos, readNat_showNat]
  have h4 : (showNat n).all isDig = true := List.all_eq_true.2 h2
  have h5 : (showNat n).isEmpty = false := by
    have : showNat n ≠ [] := h3
    simpa using this
  rw [h4, h5]; rfl

example : ∃ l : List (Nat × Nat), ranked w (fun _ => []) List.reverse "year" true false true false none (fileText file) =
    some (.ok (.ok (.pairs (l.map (fun e => (PVal.made (.num e.1), e.2)))))) ∧ (2001, 2) ∈ l ∧ (2001, 3) ∉ l := by
  obtain ⟨l, h1, _, h3, _⟩ := C108_years (fun _ => []) setting file_ok int_show (fun p => if valuesOf p "DP" = [] then none else some 2001) (by
    intro p hp
    simp only [file, List.mem_cons, List.not_mem_nil, or_false] at hp
    rcases hp with rfl | rfl | rfl
    · exact .inr ⟨2001, by decide +kernel, " Mar-Apr".toList, by decide +kernel, .inr ⟨_, rfl⟩⟩
    · exact .inr ⟨2001, by decide +kernel, [], by decide +kernel, .inl rfl⟩
    · exact .inl (by decide +kernel)) true
  exact ⟨l, h1, (h3 _ _).2 (by decide +kernel), fun hm => absurd ((h3 _ _).1 hm) (by decide +kernel)⟩

example := C108_reading (W := w) (fun _ => [.item "TI", .mem "AB"]) setting file_ok

end Verif.Props.MedlinePipeline
