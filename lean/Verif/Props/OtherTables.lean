import Verif.Lemmas.OtherTables
import Verif.Props.MedlinePipeline
import Verif.Props.ScopusPipeline
import Verif.Props.ProQuestPipeline
import Verif.Props.ScopusEntry
import Verif.Props.ScopusWhoCites

/-! # C124: two-mode networks, time series, co-occurrence counts and RPYS tables from Medline, Scopus and ProQuest files -/
set_option autoImplicit false
set_option linter.unusedSimpArgs false
namespace Verif.Props.OtherTables
open Verif.Py Verif.Model.RecordAccess Verif.Model.Series Verif.Model.OtherTables Verif.Spec Verif.Spec.OtherTables Verif.Lemmas.OtherTables
open Verif.Model.OtherFields (SVal QVal)

/-! ## Medline -/

section medline
open Verif.Model.MedlinePipeline Verif.Spec.MedlinePipeline Verif.Lemmas.MedlinePipeline
open Verif.Props.MedlinePipeline (Setting list_value of_order)

variable {W : World} {order : List Model.Medline.Rec → List Model.Medline.Rec} (before : Model.Medline.Rec → List (Op String PVal)) {papers : List Paper}

/-- The text as a value. -/
abbrev mtxt (s : Str) : PVal := .field (.text s)

theorem medline_year_value {p : Paper} (hp : PaperOk W.alpha p) (hint : ∀ n : Nat, W.prims.int (showNat n) = some (n : Int)) (year : Paper → Option Nat)
    (hy : (year p = none ∧ valuesOf p "DP" = []) ∨ ∃ y, year p = some y ∧ OfYear p y) :
    value W before "year" (toRec p) = .ok ((year p).map (fun y : Nat => PVal.made (.num (y : Int)))) := by
  have hblank : ∀ n : Nat, ' ' ∉ showNat n := by
    intro n hm
    have := (showAux_spec (n + 1) n (by omega)).2.1 _ hm
    exact absurd this (by decide)
  rw [value_common W before hp "DP" "DatePublication" "year" (by unfold TagTable.Medline; decide +kernel) (by decide) (by decide)]
  rcases hy with ⟨e, hl⟩ | ⟨y, e, tail, hhd, htl⟩
  · rw [e]
    unfold direct
    rw [if_pos hl]; rfl
  · rw [e]
    unfold direct
    cases hl : valuesOf p "DP" with
    | nil => rw [hl] at hhd; cases hhd
    | cons v rest =>
      rw [hl] at hhd
      obtain rfl : v = showNat y ++ tail := by simpa using hhd
      rw [if_neg (by simp)]
      have hp : (cls W).proc "DP" ((showNat y ++ tail) :: rest) = .ok (.field (.text (showNat y ++ tail))) := rfl
      rw [hp]
      have hyr := MedlineFields.C70_year W.prims W.dig [("DP".toList, [showNat y ++ tail])] (showNat y) tail y
        (MedlineFields.C70_first _ "DP".toList (by decide) _ [] rfl) (hblank y) htl (hint y)
      show lift (post W "year" (.field (.text (showNat y ++ tail)))) = _
      simp only [post, if_true, hyr]
      rfl

/-- The records of a Medline file with the papers they are made from. -/
theorem medline_reading (h : Setting W order) (hf : FileOk W.alpha papers) : ∃ (rs : List Model.Medline.Rec) (of : Model.Medline.Rec → Paper),
    records W order (fileText papers) = some rs ∧ (rs.map of).Perm papers ∧
    (∀ tag k, NameOf tag k → ListTag tag → Gives (value W before) fieldVal mtxt rs of k (fun p => valuesOf p tag)) ∧
    ∀ year, (∀ n : Nat, W.prims.int (showNat n) = some (n : Int)) → MedlineYears papers year → GivesYear (value W before) medlineNum rs of year := by
  classical
  have hinj : ∀ p ∈ papers, ∀ q ∈ papers, toRec p = toRec q → p = q := by
    intro p hp q hq e
    have hid : (toRec p).id = (toRec q).id := by rw [e]
    exact List.inj_on_of_nodup_map (distinct hf) hp hq hid
  let of : Model.Medline.Rec → Paper := fun r => if hr : ∃ p ∈ papers, toRec p = r then hr.choose else []
  have hof : ∀ p ∈ papers, of (toRec p) = p := by
    intro p hp
    have hr : ∃ q ∈ papers, toRec q = toRec p := ⟨p, hp, rfl⟩
    show (if hr : ∃ q ∈ papers, toRec q = toRec p then hr.choose else []) = p
    rw [dif_pos hr]
    exact hinj _ hr.choose_spec.1 _ hp hr.choose_spec.2
  refine ⟨_, of, records_eq W order h.classes hf, ?_, ?_, ?_⟩
  · have := (h.perm (papers.map toRec)).map of
    rw [List.map_map] at this
    refine this.trans (List.Perm.of_eq ?_)
    conv => rhs; rw [← List.map_id papers]
    exact List.map_congr_left (fun p hp => hof p hp)
  · intro tag k hk ht r hr
    obtain ⟨p, hp, hpok, rfl⟩ := of_order h hf hr
    refine ⟨_, list_value before hpok hk ht, ?_⟩
    rw [hof p hp]
    dsimp only
    by_cases hl : valuesOf p tag = []
    · rw [if_pos hl, hl]; rfl
    · rw [if_neg hl]; rfl
  · intro year hint hy r hr
    obtain ⟨p, hp, hpok, rfl⟩ := of_order h hf hr
    refine ⟨_, medline_year_value before hpok hint year (hy p hp), ?_⟩
    rw [hof p hp]
    cases year p <;> rfl

/-- **C124, Medline, two modes.** A value of the first tag is joined to a value of the second as often as papers have both, and the nodes are the values. -/
theorem C124_medline_two_mode (h : Setting W order) (hf : FileOk W.alpha papers) (tag1 tag2 k1 k2 : String) (hk1 : NameOf tag1 k1) (ht1 : ListTag tag1)
    (hk2 : NameOf tag2 k2) (ht2 : ListTag tag2) (hk : k1 ≠ k2) (directed nodeCount edgeWeight recordType : Bool) :
    ∃ g, medlineTwoMode W before order directed nodeCount edgeWeight recordType k1 k2 (fileText papers) = some (.ok g) ∧ g.directed = directed ∧
      (∀ a b, g.edge? a b = edgeFor edgeWeight (papers.map (fun p => crossShared directed (valuesOf p tag1) (valuesOf p tag2) a b)).sum) ∧
      ∀ a, g.hasNode a = true ↔ ∃ p ∈ papers, a ∈ valuesOf p tag1 ∨ a ∈ valuesOf p tag2 := by
  obtain ⟨rs, of, h1, h2, h3, _⟩ := medline_reading before h hf
  unfold medlineTwoMode
  rw [h1]
  obtain ⟨g, g1, g2⟩ := twoMode_spec h2 (nodeText := nodeText) (fun _ => rfl) hk (h3 tag1 k1 hk1 ht1) (h3 tag2 k2 hk2 ht2) directed nodeCount edgeWeight recordType
  exact ⟨g, by rw [Option.map_some, g1], g2⟩

/-- **C124, Medline, counts.** For each value of the key tag the table counts how often each value of the other tag stands beside it, over the papers. -/
theorem C124_medline_cooccurrence (h : Setting W order) (hf : FileOk W.alpha papers) (tag1 tag2 k1 k2 : String) (hk1 : NameOf tag1 k1) (ht1 : ListTag tag1)
    (hk2 : NameOf tag2 k2) (ht2 : ListTag tag2) :
    ∃ d, medlineCooccurrences W before order k1 k2 (fileText papers) = some (.ok d) ∧ Dict.WF d ∧
      (∀ k, k ∈ Dict.keys d ↔ ∃ p ∈ papers, ∃ a ∈ valuesOf p tag1, k = mtxt a) ∧
      ∀ a inner, d.get? (mtxt a) = some inner → Dict.WF inner ∧ ∀ b n, inner.get? (mtxt b) = some n ↔
        n = (papers.map (fun p => (valuesOf p tag1).count a * (valuesOf p tag2).count b)).sum ∧ 0 < n := by
  obtain ⟨rs, of, h1, h2, h3, _⟩ := medline_reading before h hf
  unfold medlineCooccurrences
  rw [h1]
  obtain ⟨d, d1, d2⟩ := cooccurrences_spec h2 (nodeText := nodeText) (fun _ => rfl) (h3 tag1 k1 hk1 ht1) (h3 tag2 k2 hk2 ht2)
  exact ⟨d, by rw [Option.map_some, d1], d2⟩

/-- **C124, Medline, time series.** Each value is listed once for each year in which a paper has it, in the order of the years; in pandas form with the number of times. -/
theorem C124_medline_time_series (h : Setting W order) (hf : FileOk W.alpha papers) (hint : ∀ n : Nat, W.prims.int (showNat n) = some (n : Int))
    (year : Paper → Option Nat) (hy : MedlineYears papers year) (tag k : String) (hk : NameOf tag k) (ht : ListTag tag) (gf : Bool) :
    ∃ l : List (Str × Nat), l.Nodup ∧ (∀ a y, (a, y) ∈ l ↔ ∃ p ∈ papers, year p = some y ∧ a ∈ valuesOf p tag) ∧
      (gf = true → l.Pairwise (fun a b => b.2 ≤ a.2)) ∧ (gf = false → l.Pairwise (fun a b => a.2 ≤ b.2)) ∧
      medlineTimeSeries W before order k true gf false none (fileText papers) = some (.ok (.pairs (l.map (fun e => (mtxt e.1, e.2))))) ∧
      ∀ gy, medlineTimeSeries W before order k gy gf true none (fileText papers) = some (.ok (.pandas (l.map (fun e => mtxt e.1))
        (l.map (fun e => (papers.map (fun p => if year p = some e.2 then (valuesOf p tag).count e.1 else 0)).sum)) (l.map Prod.snd))) := by
  obtain ⟨rs, of, h1, h2, h3, h4⟩ := medline_reading before h hf
  unfold medlineTimeSeries
  rw [h1]
  obtain ⟨l, l1, l2, l3, l4, l5, l6⟩ := timeSeries_spec h2 (nodeText := nodeText) (fun _ => rfl) (h4 year hint hy) (h3 tag k hk ht) gf
  exact ⟨l, l1, l2, l3, l4, by rw [Option.map_some, l5], fun gy => by rw [Option.map_some, l6 gy]⟩
end medline

/-! ## Scopus -/

section scopus
open Verif.Model.ScopusPipeline Verif.Spec.ScopusPipeline Verif.Lemmas.ScopusPipeline
open Verif.Props.ScopusPipeline (of_order paper_of C109_reading)

variable {W : World} {order : List Model.Scopus.Rec → List Model.Scopus.Rec} (before : Model.Scopus.Rec → List (Op String SVal)) {papers : List Paper}

/-- The records of a Scopus file with the papers they are made from. -/
theorem scopus_reading (ho : ∀ rs, (order rs).Perm rs) (hf : FileOk papers) : ∃ (rs : List Model.Scopus.Rec) (of : Model.Scopus.Rec → Paper),
    records order (fileText papers) = some rs ∧ (rs.map of).Perm papers ∧
    (∀ k items, ScopusItems papers k items → Gives (value W before) fieldVal SVal.text rs of k items) ∧
    ∀ year, (∀ n : Nat, W.prims.int (showNat n) = some (n : Int)) → ScopusYears papers year → GivesYear (value W before) scopusNum rs of year := by
  obtain ⟨rs, of, h1, h2, h3⟩ := C109_reading (W := W) before ho hf
  have hmem : ∀ r ∈ rs, of r ∈ papers := fun r hr => h2.mem_iff.1 (List.mem_map_of_mem hr)
  refine ⟨rs, of, h1, h2, ?_, ?_⟩
  · intro k items hi r hr
    obtain ⟨_, a1, a2, _⟩ := h3 r hr
    rcases hi with ⟨c, sep, hc, hk, hl⟩ | ⟨c, hc, hk, hl⟩
    · refine ⟨_, a1 c sep k _ hc hk (hl _ (hmem r hr)), ?_⟩
      by_cases hn : items (of r) = []
      · rw [if_pos hn, hn]; rfl
      · rw [if_neg hn]; rfl
    · refine ⟨_, a2 c hc k hk, ?_⟩
      rw [hl _ (hmem r hr)]
      cases (of r c).value <;> rfl
  · intro year hint hy r hr
    obtain ⟨_, _, _, a3⟩ := h3 r hr
    obtain ⟨b1, b2⟩ := a3 "Year" (by decide) "year" (.inr (by decide))
    have e := hy _ (hmem r hr)
    cases hyr : year (of r) with
    | none => rw [hyr] at e; exact ⟨_, b1 e, rfl⟩
    | some y => rw [hyr] at e; exact ⟨_, b2 _ _ e (hint y), rfl⟩

/-- **C124, Scopus, two modes.** -/
theorem C124_scopus_two_mode (ho : ∀ rs, (order rs).Perm rs) (hf : FileOk papers) {k1 k2 : String} {items1 items2 : Paper → List Str} (hi1 : ScopusItems papers k1 items1)
    (hi2 : ScopusItems papers k2 items2) (hk : k1 ≠ k2) (directed nodeCount edgeWeight recordType : Bool) :
    ∃ g, scopusTwoMode W before order directed nodeCount edgeWeight recordType k1 k2 (fileText papers) = some (.ok g) ∧ g.directed = directed ∧
      (∀ a b, g.edge? a b = edgeFor edgeWeight (papers.map (fun p => crossShared directed (items1 p) (items2 p) a b)).sum) ∧
      ∀ a, g.hasNode a = true ↔ ∃ p ∈ papers, a ∈ items1 p ∨ a ∈ items2 p := by
  obtain ⟨rs, of, h1, h2, h3, _⟩ := scopus_reading (W := W) before ho hf
  unfold scopusTwoMode
  rw [h1]
  obtain ⟨g, g1, g2⟩ := twoMode_spec h2 (nodeText := nodeText) (fun _ => rfl) hk (h3 k1 _ hi1) (h3 k2 _ hi2) directed nodeCount edgeWeight recordType
  exact ⟨g, by rw [Option.map_some, g1], g2⟩

/-- **C124, Scopus, counts.** -/
theorem C124_scopus_cooccurrence (ho : ∀ rs, (order rs).Perm rs) (hf : FileOk papers) {k1 k2 : String} {items1 items2 : Paper → List Str}
    (hi1 : ScopusItems papers k1 items1) (hi2 : ScopusItems papers k2 items2) :
    ∃ d, scopusCooccurrences W before order k1 k2 (fileText papers) = some (.ok d) ∧ Dict.WF d ∧
      (∀ k, k ∈ Dict.keys d ↔ ∃ p ∈ papers, ∃ a ∈ items1 p, k = .text a) ∧
      ∀ a inner, d.get? (.text a) = some inner → Dict.WF inner ∧ ∀ b n, inner.get? (.text b) = some n ↔
        n = (papers.map (fun p => (items1 p).count a * (items2 p).count b)).sum ∧ 0 < n := by
  obtain ⟨rs, of, h1, h2, h3, _⟩ := scopus_reading (W := W) before ho hf
  unfold scopusCooccurrences
  rw [h1]
  obtain ⟨d, d1, d2⟩ := cooccurrences_spec h2 (nodeText := nodeText) (fun _ => rfl) (h3 k1 _ hi1) (h3 k2 _ hi2)
  exact ⟨d, by rw [Option.map_some, d1], d2⟩

/-- **C124, Scopus, time series.** -/
theorem C124_scopus_time_series (ho : ∀ rs, (order rs).Perm rs) (hf : FileOk papers) (hint : ∀ n : Nat, W.prims.int (showNat n) = some (n : Int))
    (year : Paper → Option Nat) (hy : ScopusYears papers year) {k : String} {items : Paper → List Str} (hi : ScopusItems papers k items) (gf : Bool) :
    ∃ l : List (Str × Nat), l.Nodup ∧ (∀ a y, (a, y) ∈ l ↔ ∃ p ∈ papers, year p = some y ∧ a ∈ items p) ∧
      (gf = true → l.Pairwise (fun a b => b.2 ≤ a.2)) ∧ (gf = false → l.Pairwise (fun a b => a.2 ≤ b.2)) ∧
      scopusTimeSeries W before order k true gf false none (fileText papers) = some (.ok (.pairs (l.map (fun e => (.text e.1, e.2))))) ∧
      ∀ gy, scopusTimeSeries W before order k gy gf true none (fileText papers) = some (.ok (.pandas (l.map (fun e => .text e.1))
        (l.map (fun e => (papers.map (fun p => if year p = some e.2 then (items p).count e.1 else 0)).sum)) (l.map Prod.snd))) := by
  obtain ⟨rs, of, h1, h2, h3, h4⟩ := scopus_reading (W := W) before ho hf
  unfold scopusTimeSeries
  rw [h1]
  obtain ⟨l, l1, l2, l3, l4, l5, l6⟩ := timeSeries_spec h2 (nodeText := nodeText) (fun _ => rfl) (h4 year hint hy) (h3 k _ hi) gf
  exact ⟨l, l1, l2, l3, l4, by rw [Option.map_some, l5], fun gy => by rw [Option.map_some, l6 gy]⟩

theorem year_of {C : Model.CiteParse.Chars} (hC : ScopusCite.CharsOk C) {s : Str} {y : Option Nat} (h : YearOf C s y) :
    (Model.CiteParse.parseScopus C s).cite.year.join = y.map (fun n : Nat => (n : Int)) := by
  rcases h with ⟨e, he, rfl, rfl⟩ | ⟨rfl, h⟩
  · rw [(ScopusEntry.C123_read hC e he).2.1]; rfl
  · rw [ScopusEntry.C123_parenthesis hC s h]; rfl

/-- **C124, Scopus, RPYS.** The table of the file has each year from the first to the last, without the dropped ones, exactly once, with the number of references to
works of that year in papers two years younger or without a year, how far that is from the median of the five years around it, and its rank. References whose title has a
parenthesis are not counted. -/
theorem C124_scopus_rpys (ho : ∀ rs, (order rs).Perm rs) (hf : FileOk papers) (hC : ScopusCite.CharsOk W.chars) (hint : ∀ n : Nat, W.prims.int (showNat n) = some (n : Int))
    (year : Paper → Option Nat) (hy : ScopusYears papers year) (refs : Paper → List Str) (hr : ∀ p ∈ papers, Lists "; " (p "References") (refs p))
    (yearOf : Str → Option Nat) (hyo : ∀ p ∈ papers, ∀ s ∈ refs p, YearOf W.chars s (yearOf s))
    (years : List Int → List Int) (hyears : ∀ l, (years l).Perm l) (lo hi : Int) (minYear maxYear : Option Int) (drop : Model.Rpys.DropYears) (rankEmpty : Bool)
    (cited : Int → Nat) (hcited : cited = citedIn papers year (fun p => (refs p).map yearOf))
    (hlo : minYear = some lo ∨ minYear = none ∧ 1000 < lo ∧ IsLeast { y | 0 < cited y ∧ ∀ M, maxYear = some M → y ≤ M + 2 } lo)
    (hhi : maxYear = some hi ∨ maxYear = none ∧ hi < 2100 ∧ IsGreatest { y | 0 < cited y ∧ ∀ m, minYear = some m → m - 2 ≤ y } hi)
    (hdrop : ∀ y, drop ≠ .one y) :
    ∃ t, scopusRpys W before order years minYear maxYear drop rankEmpty (fileText papers) = some (.ok (.ok t)) ∧
      t.year.Nodup ∧ (∀ y, y ∈ t.year ↔ (lo ≤ y ∧ y ≤ hi) ∧ ∀ l, drop = .many l → y ∉ l) ∧ t.count = t.year.map cited ∧
      ∃ dev : Int → Int, t.dev = t.year.map dev ∧
        (∀ y ∈ t.year, ∃ m, Verif.Props.IsMedian ([y - 2, y - 1, y, y + 1, y + 2].map cited) m ∧ dev y = (cited y : Int) - m) ∧
        ∃ rank : Int → Nat, t.rank = t.year.map (fun y => if cited y = 0 ∧ rankEmpty = false then 0 else rank y) ∧
          (t.year.map rank).Perm (List.range' 1 t.year.length) ∧ ∀ y ∈ t.year, ∀ z ∈ t.year, dev y < dev z → rank y < rank z := by
  subst hcited
  obtain ⟨of, hof⟩ := paper_of hf
  have h2 : ((order (papers.map toRec)).map of).Perm papers := by
    have := (ho (papers.map toRec)).map of
    rw [List.map_map] at this
    refine this.trans (List.Perm.of_eq ?_)
    conv => rhs; rw [← List.map_id papers]
    exact List.map_congr_left (fun p hp => hof p hp)
  have hyg : GivesYear (value W before) scopusNum (order (papers.map toRec)) of year := by
    intro r hr
    obtain ⟨p, hp, hpok, rfl⟩ := of_order ho hf hr
    have hk : Model.OtherFields.scopusKinds.get? "Year".toList = some .integer := by decide +kernel
    rw [value_eq W before hpok "Year" "year" (by decide) (.inr (by decide)), hof p hp]
    unfold direct
    have e := hy p hp
    cases hyr : year p with
    | none => rw [hyr] at e; rw [e]; exact ⟨_, rfl, rfl⟩
    | some y =>
      rw [hyr] at e; rw [e]
      simp only [cls, Option.map_some, OtherFields.kind_of W.prims hk, Model.OtherFields.processScopus, hint]
      exact ⟨_, rfl, rfl⟩
  have hcg : GivesCites (value W before) (citations W) (order (papers.map toRec)) of (fun p => (refs p).map yearOf) := by
    intro r hr'
    obtain ⟨p, hp, hpok, rfl⟩ := of_order ho hf hr'
    rw [value_eq W before hpok "References" "citations" (by decide) (.inr (by decide)), hof p hp]
    unfold direct
    dsimp only
    rcases hr p hp with ⟨h1, h2⟩ | ⟨h1, h2, h3⟩
    · rw [h1]
      refine ⟨none, rfl, ?_⟩
      rw [if_pos (by simpa using h2)]
      rfl
    · rw [h2, if_neg (by simpa using h1)]
      have := ((OtherFields.C71_scopus_lists W.prims (refs p) h1).2.2 h3).2.2
      simp only [cls, this]
      refine ⟨some (.cites (refs p)), rfl, ?_⟩
      simp only [citations, Option.map_some, List.map_map]
      congr 1
      apply List.map_congr_left
      intro s hs
      exact year_of hC (hyo p hp s hs)
  obtain ⟨t, t1, t2⟩ := rpys_spec h2 hyg hcg years hyears lo hi minYear maxYear drop rankEmpty hlo hhi hdrop
  refine ⟨t, ?_, t2⟩
  unfold scopusRpys
  rw [records_eq order hf, Option.map_some, t1]
end scopus

/-! ## ProQuest -/

section proquest
open Verif.Model.ProQuestPipeline Verif.Spec.ProQuestPipeline Verif.Lemmas.ProQuestPipeline
open Verif.Model.ProQuest (mkRec)
open Verif.Props.ProQuestPipeline (of_order)

variable {W : World} {order : List Model.ProQuest.Rec → List Model.ProQuest.Rec} (before : Model.ProQuest.Rec → List (Op String QVal)) {lines : List Str} {papers : List Paper}

/-- **C124, ProQuest, counts.** -/
theorem C124_proquest_cooccurrence (ho : ∀ rs, (order rs).Perm rs) (hf : FileOk W.ws W.toInt lines papers) (c1 c2 k1 k2 : String) (hk1 : NameOf c1 k1) (hk2 : NameOf c2 k2)
    (items1 items2 : Paper → List Str) (hi1 : ∀ p ∈ papers, Values p c1 (items1 p)) (hi2 : ∀ p ∈ papers, Values p c2 (items2 p)) :
    ∃ d, proQuestCooccurrences W before order k1 k2 lines.flatten = some (.ok d) ∧ Dict.WF d ∧
      (∀ k, k ∈ Dict.keys d ↔ ∃ p ∈ papers, ∃ a ∈ items1 p, k = .text a) ∧
      ∀ a inner, d.get? (.text a) = some inner → Dict.WF inner ∧ ∀ b n, inner.get? (.text b) = some n ↔
        n = (papers.map (fun p => (items1 p).count a * (items2 p).count b)).sum ∧ 0 < n := by
  have h2 : ((order (papers.map mkRec)).map Model.ProQuest.Rec.fields).Perm papers := by
    have := (ho (papers.map mkRec)).map Model.ProQuest.Rec.fields
    rw [List.map_map] at this
    refine this.trans (List.Perm.of_eq ?_)
    conv => rhs; rw [← List.map_id papers]
    exact List.map_congr_left (fun p _ => fields_of p)
  have hg : ∀ c k, NameOf c k → ∀ items : Paper → List Str, (∀ p ∈ papers, Values p c (items p)) →
      Gives (value W before) fieldVal QVal.text (order (papers.map mkRec)) Model.ProQuest.Rec.fields k items := by
    intro c k hk items hi r hr
    obtain ⟨p, hp, rfl⟩ := of_order ho hr
    obtain ⟨o, a1, a2⟩ := value_values W before (hf.labels p hp) (filled hf p hp) c k hk _ (hi p hp)
    rw [fields_of]
    exact ⟨o, a1, a2⟩
  unfold proQuestCooccurrences
  rw [records_eq order hf]
  obtain ⟨d, d1, d2⟩ := cooccurrences_spec h2 (nodeText := nodeText) (fun _ => rfl) (hg c1 k1 hk1 items1 hi1) (hg c2 k2 hk2 items2 hi2)
  exact ⟨d, by rw [Option.map_some, d1], d2⟩
end proquest

/-! ## Files -/

section
open Verif.Model.MedlinePipeline Verif.Spec.MedlinePipeline Verif.Props.MedlinePipeline

theorem medline_authors : NameOf "FAU" "authorsFull" := ⟨"FullAuthor", by unfold TagTable.Medline; decide +kernel, by decide⟩

theorem medline_years : MedlineYears file (fun p => if valuesOf p "DP" = [] then none else some 2001) := by
  intro p hp
  simp only [file, List.mem_cons, List.not_mem_nil, or_false] at hp
  rcases hp with rfl | rfl | rfl
  · exact .inr ⟨2001, by decide +kernel, " Mar-Apr".toList, by decide +kernel, .inr ⟨_, rfl⟩⟩
  · exact .inr ⟨2001, by decide +kernel, [], by decide +kernel, .inl rfl⟩
  · exact .inl (by decide +kernel)

/-- Bob has two papers on mice. -/
example : ∃ g, medlineTwoMode w (fun _ => [.item "MH"]) List.reverse true false true false "authorsFull" "MeSHTerms" (fileText file) = some (.ok g) ∧
    g.edge? "Bob, B".toList "Mice".toList = some (some 2) ∧ g.edge? "Mice".toList "Bob, B".toList = none ∧ g.edge? "Cy, C".toList "Humans".toList = none ∧
    g.hasNode "Humans".toList = true := by
  obtain ⟨g, h1, _, h3, h4⟩ := C124_medline_two_mode (fun _ => [.item "MH"]) setting file_ok "FAU" "MH" "authorsFull" "MeSHTerms" medline_authors (by unfold ListTag; decide) terms
    (by unfold ListTag; decide) (by decide) true false true false
  exact ⟨g, h1, (h3 _ _).trans (by decide +kernel), (h3 _ _).trans (by decide +kernel), (h3 _ _).trans (by decide +kernel), (h4 _).2 (by decide +kernel)⟩

example : ∃ d inner, medlineCooccurrences w (fun _ => []) List.reverse "MeSHTerms" "authorsFull" (fileText file) = some (.ok d) ∧
    d.get? (mtxt "Mice".toList) = some inner ∧ inner.get? (mtxt "Ada, A".toList) = some 2 ∧ inner.get? (mtxt "Nobody".toList) = none := by
  obtain ⟨d, h1, _, h3, h4⟩ := C124_medline_cooccurrence (fun _ => []) setting file_ok "MH" "FAU" "MeSHTerms" "authorsFull" terms (by unfold ListTag; decide) medline_authors
    (by unfold ListTag; decide)
  have := (h3 (mtxt "Mice".toList)).2 ⟨file[0], List.getElem_mem _, _, by decide +kernel, rfl⟩
  cases hi : d.get? (mtxt "Mice".toList) with
  | none => exact absurd this (by rw [Dict.mem_keys_iff, hi]; simp)
  | some inner =>
    refine ⟨d, inner, h1, hi, ((h4 _ inner hi).2 _ 2).2 ⟨by decide +kernel, by decide⟩, ?_⟩
    cases hn : inner.get? (mtxt "Nobody".toList) with
    | none => rfl
    | some n =>
      obtain ⟨e, h0⟩ := ((h4 _ inner hi).2 _ n).1 hn
      rw [e] at h0
      exact absurd h0 (by decide +kernel)

example : ∃ l : List (Str × Nat), ("Mice".toList, 2001) ∈ l ∧ ("Mice".toList, 2002) ∉ l ∧
    medlineTimeSeries w (fun _ => []) List.reverse "MeSHTerms" true false false none (fileText file) = some (.ok (.pairs (l.map (fun e => (mtxt e.1, e.2))))) := by
  obtain ⟨l, _, h2, _, _, h5, _⟩ := C124_medline_time_series (fun _ => []) setting file_ok int_show _ medline_years "MH" "MeSHTerms" terms (by unfold ListTag; decide) false
  exact ⟨l, (h2 _ _).2 (by decide +kernel), fun h => absurd ((h2 _ _).1 h) (by decide +kernel), h5⟩
end

section
open Verif.Model.ScopusPipeline Verif.Spec.ScopusPipeline Verif.Props.ScopusWhoCites
open Verif.Props.ScopusPipeline (w listed authors_ok keywords_ok)

theorem scopus_authors : ScopusItems ScopusPipeline.file "authorsFull" (listed "Authors" ", ".toList) := .inl ⟨"Authors", ", ", by decide, .inr (by decide), authors_ok⟩
theorem scopus_keywords : ScopusItems ScopusPipeline.file "Index Keywords" (listed "Index Keywords" "; ".toList) := .inl ⟨"Index Keywords", "; ", by decide, .inl rfl, keywords_ok⟩
theorem scopus_titles : ScopusItems ScopusPipeline.file "title" (fun p => (p "Title").value.toList) := .inr ⟨"Title", by decide, .inr (by decide), fun _ _ => rfl⟩

def oneYear (p : Paper) : Option Nat := if (p "Year").value = none then none else some 2001
theorem scopus_years : ScopusYears ScopusPipeline.file oneYear := by unfold ScopusYears; decide +kernel

example := C124_scopus_two_mode (W := w) (fun _ => [.item "title"]) List.reverse_perm ScopusPipeline.file_ok scopus_authors scopus_keywords (by decide) false true true true
example := C124_scopus_two_mode (W := w) (fun _ => []) List.reverse_perm ScopusPipeline.file_ok scopus_titles scopus_keywords (by decide) true true true true
example := C124_scopus_cooccurrence (W := w) (fun _ => []) List.reverse_perm ScopusPipeline.file_ok scopus_authors scopus_keywords
example := C124_scopus_time_series (W := w) (fun _ => []) List.reverse_perm ScopusPipeline.file_ok texts.int oneYear scopus_years scopus_keywords true

/-- The references of the file of C119, and their years. -/
def entries : List ScopusEntry.Entry :=
  [⟨"Nunez".toList, "R".toList, some "What?".toList, 1998, "Math Cognition".toList, ", 4, pp. 85-113".toList⟩,
   ⟨"Lieber".toList, "M".toList, some "A book".toList, 1990, "Other".toList, ", 1".toList⟩,
   ⟨"Lieber".toList, "M".toList, some "The book".toList, 1990, "Other".toList, ", 1".toList⟩,
   ⟨"Nunez".toList, "R".toList, some "What".toList, 1998, "Math Cognition".toList, ", 4".toList⟩]

def yearIn (s : Str) : Option Nat := (entries.find? (fun e => decide (e.line = s))).map ScopusEntry.Entry.year

theorem entries_ok : ∀ e ∈ entries, ScopusEntry.Ok w.chars.word w.chars.upper e := by
  intro e he
  have h : ∀ e ∈ entries, (w.chars.upper e.family ≠ [] ∧ ∀ c ∈ w.chars.upper e.family, w.chars.word c = true ∨ c = '-' ∨ c = ' ') ∧
      (w.chars.upper e.initials ≠ [] ∧ ∀ c ∈ w.chars.upper e.initials, w.chars.word c = true ∨ c = '.' ∨ c = '-') ∧ (∀ m ∈ e.middle, m ≠ [] ∧ '(' ∉ m) ∧
      10 ≤ e.year ∧ e.year < 100000 ∧ (e.journal ≠ [] ∧ ',' ∉ e.journal) ∧ e.tail = ',' :: e.tail.tail := by decide +kernel
  obtain ⟨h1, h2, h3, h4, h5, h6, h7⟩ := h e he
  exact ⟨h1, h2, h3, h4, h5, h6, .inr ⟨_, h7⟩⟩

theorem years_read : ∀ p ∈ file true, ∀ s ∈ refs p, YearOf w.chars s (yearIn s) := by
  have h : ∀ p ∈ file true, ∀ s ∈ refs p, ∃ e ∈ entries, s = e.line ∧ yearIn s = some e.year := by decide +kernel
  intro p hp s hs
  obtain ⟨e, he, h1, h2⟩ := h p hp s hs
  exact .inl ⟨e, entries_ok e he, h1, h2⟩

def paperYear (p : Paper) : Option Nat :=
  if (p "EID").value = some "11".toList then some 1998 else if (p "EID").value = some "12".toList then some 2001 else some 2003

/-- 1990 and 1998 are cited twice each; the table goes from the one to the other. -/
example : ∃ t, scopusRpys w (fun _ => []) List.reverse id none none .none false (fileText (file true)) = some (.ok (.ok t)) ∧
    (1990 : Int) ∈ t.year ∧ (1994 : Int) ∈ t.year ∧ (1999 : Int) ∉ t.year ∧ t.count = t.year.map (citedIn (file true) paperYear (fun p => (refs p).map yearIn)) ∧
    citedIn (file true) paperYear (fun p => (refs p).map yearIn) 1990 = 2 := by
  have hall : ∀ y : Int, 0 < citedIn (file true) paperYear (fun p => (refs p).map yearIn) y → y = 1990 ∨ y = 1998 := by
    intro y hy
    unfold citedIn at hy
    obtain ⟨p, hp, hpos⟩ := FileTables.sum_pos.1 hy
    split at hpos
    · cases hpos
    · obtain ⟨o, ho, hoy⟩ := List.countP_pos_iff.1 hpos
      have h : ∀ p ∈ file true, ∀ o ∈ (refs p).map yearIn, o = some 1990 ∨ o = some 1998 := by decide +kernel
      rcases h p hp o ho with rfl | rfl
      · simp at hoy; omega
      · simp at hoy; omega
  have h90 : citedIn (file true) paperYear (fun p => (refs p).map yearIn) 1990 = 2 := by decide +kernel
  have h98 : citedIn (file true) paperYear (fun p => (refs p).map yearIn) 1998 = 2 := by decide +kernel
  obtain ⟨t, h1, _, h3, h4, _⟩ := C124_scopus_rpys (W := w) (fun _ => []) List.reverse_perm (file_ok true) texts.chars texts.int paperYear (by unfold ScopusYears; decide +kernel) refs
    (refs_ok true) yearIn years_read id (fun _ => List.Perm.refl _) 1990 1998 none none .none false _ rfl
    (.inr ⟨rfl, by decide, ⟨by rw [h90]; decide, by intro m hm; cases hm⟩, fun y hy => by rcases hall y hy.1 with rfl | rfl <;> decide⟩)
    (.inr ⟨rfl, by decide, ⟨by rw [h98]; decide, by intro m hm; cases hm⟩, fun y hy => by rcases hall y hy.1 with rfl | rfl <;> decide⟩) (by intro y h; cases h)
  refine ⟨t, h1, (h3 _).2 ⟨by decide, by intro l h; cases h⟩, (h3 _).2 ⟨by decide, by intro l h; cases h⟩, fun h => ?_, h4, h90⟩
  exact absurd ((h3 _).1 h).1.2 (by decide)

/-- A reference that is not counted. -/
example : YearOf w.chars "Nunez, R., On (some) things (1998) Math Cognition, 4".toList none :=
  .inr ⟨rfl, .inr ⟨"Nunez, R., On ".toList, 's', "ome) things (1998) Math Cognition, 4".toList, by decide +kernel, by decide, by decide +kernel⟩⟩
end

section
open Verif.Model.ProQuestPipeline Verif.Spec.ProQuestPipeline Verif.Props.ProQuestPipeline

/-- Both papers of 2001 are about bees. -/
example : ∃ d inner, proQuestCooccurrences w (fun _ => [.item "title"]) List.reverse "Degree date" "Subject" theFile.flatten = some (.ok d) ∧
    d.get? (.text "2001".toList) = some inner ∧ inner.get? (.text "bees".toList) = some 2 ∧ inner.get? (.text "ants".toList) = some 1 := by
  obtain ⟨d, h1, _, h3, h4⟩ := C124_proquest_cooccurrence (W := w) (fun _ => [.item "title"]) List.reverse_perm file_ok "Degree date" "Subject" "Degree date" "Subject"
    (.inl rfl) (.inl rfl) _ _ (one_ok "Degree date" (by decide)) subjects_ok
  have := (h3 (.text "2001".toList)).2 ⟨file[0], List.getElem_mem _, _, by decide +kernel, rfl⟩
  cases hi : d.get? (.text "2001".toList) with
  | none => exact absurd this (by rw [Dict.mem_keys_iff, hi]; simp)
  | some inner => exact ⟨d, inner, h1, hi, ((h4 _ inner hi).2 _ 2).2 ⟨by decide +kernel, by decide⟩, ((h4 _ inner hi).2 _ 1).2 ⟨by decide +kernel, by decide⟩⟩
end

end Verif.Props.OtherTables
