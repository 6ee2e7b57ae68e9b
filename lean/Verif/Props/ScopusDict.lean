import Verif.Spec.ScopusDict
import Verif.Model.ScopusDict
import Verif.Props.ScopusFrames
import Verif.Props.MedlineFrames

/-! # C131: from a Scopus file to the table of `makeDict` -/
set_option autoImplicit false
set_option linter.unusedSimpArgs false
namespace Verif.Props.ScopusDict
open Verif.Py Verif.Model.OtherFields Verif.Model.WosFields Verif.Model.RecordAccess Verif.Model.ScopusPipeline Verif.Model.ScopusDict Verif.Spec.ScopusPipeline
  Verif.Spec.ScopusDict Verif.Spec Verif.Spec.Scopus Verif.Lemmas.ScopusPipeline Verif.Props.ScopusPipeline

section
variable {W : World} {order : List Model.Scopus.Rec → List Model.Scopus.Rec} (before : Model.Scopus.Rec → List (Op String SVal)) {papers : List Paper}

/-- A name that is no column and no name of something else. -/
theorem no_name {p : Paper} (h : PaperOk p) {k : String} (hk : k ∉ columns) (hs : k ≠ "selfCitation") (hr : Dict.get? scopusReads k = none) :
    value W before k (toRec p) = .ok none := by
  have key : (getitem (cls W) 3 (held W (before (toRec p)) (toRec p)) k).1 = .error .keyError := by
    have hist := (C28_history_independent (C28_scopus_class (cls W).proc W.truthy W.fin) (strFields p) (noClash W _) (before (toRec p)) k).2.1
    refine Eq.trans hist ?_
    change (getitem (cls W) 3 (fresh (strFields p)) k).1 = _
    have hg := strFields_get? h k
    rw [if_neg hk] at hg
    have hsp : (cls W).special k = .done (.error .keyError) := by
      show scopusSpecial W.truthy W.fin k = _
      unfold scopusSpecial
      rw [if_neg hs, hr]
    have ha : ∀ R : Model.RecordAccess.Rec String Str SVal, altField (cls W) R k = none := fun _ => rfl
    unfold getitem
    simp only [fresh, Dict.get?_nil, hg, ha, hsp, runProg, store]
  unfold value
  rw [key]

theorem column_value (hint : ∀ n : Nat, W.prims.int (showNat n) = some (n : Int)) {c : String} {cell : Paper → Option SVal} (hc : Column papers c cell) {p : Paper}
    (hp : p ∈ papers) (hpok : PaperOk p) : value W before c (toRec p) = .ok (cell p) := by
  cases hc with
  | list _ sep items h1 h2 => exact value_list W before hpok c sep c h1 (.inl rfl) _ (h2 p hp)
  | text _ h1 =>
    have hcol : ∀ c ∈ textColumns, c ∈ columns ∧ scopusKinds.get? c.toList = some .string := by decide +kernel
    obtain ⟨a, b⟩ := hcol c h1
    rw [value_eq W before hpok c c a (.inl rfl)]
    unfold direct
    dsimp only
    cases (p c).value with
    | none => rfl
    | some t => simp only [cls, OtherFields.kind_of W.prims b, processScopus]; rfl
  | number _ n h1 h2 =>
    have hcol : ∀ c ∈ ["Year", "Page count", "Cited by", "Conference code"], c ∈ columns ∧ scopusKinds.get? c.toList = some .integer := by decide +kernel
    obtain ⟨a, b⟩ := hcol c h1
    rw [value_eq W before hpok c c a (.inl rfl)]
    unfold direct
    dsimp only
    rw [h2 p hp]
    cases n p with
    | none => rfl
    | some t =>
      simp only [Option.map_some, cls, OtherFields.kind_of W.prims b, processScopus, hint t]
      rfl
  | references items h1 =>
    rw [value_eq W before hpok "References" "References" (by decide) (.inl rfl)]
    unfold direct
    dsimp only
    rcases h1 p hp with ⟨a, b⟩ | ⟨a, b, c⟩
    · rw [a, b]; rfl
    · rw [b, if_neg a]
      have := ((OtherFields.C71_scopus_lists W.prims (items p) a).2.2 c).2.2
      simp only [cls, this]
      rfl
  | grants items h1 =>
    rw [value_eq W before hpok "Funding Details" "Funding Details" (by decide) (.inl rfl)]
    unfold direct
    dsimp only
    rcases h1 p hp with ⟨a, b⟩ | ⟨a, b, c⟩
    · rw [a, b]; rfl
    · rw [b, if_neg a]
      have := ((OtherFields.C71_scopus_lists W.prims (items p) a).2.2 c).2.1
      simp only [cls, this]
      rfl

theorem readAll_ok {names : List Str} {rs : List Model.Scopus.Rec} (hall : ∀ t ∈ names, ∀ r ∈ rs, ∃ v, value W before (String.ofList t) r = .ok v) :
    ∃ l, readAll W before names rs = .ok l := by
  refine ⟨_, Lemmas.Pipeline.mapM_ok _ (fun r => names.map (fun t => match value W before (String.ofList t) r with | .ok v => v | .error _ => none)) rs (fun r hr => ?_)⟩
  refine Lemmas.Pipeline.mapM_ok _ _ names (fun t ht => ?_)
  obtain ⟨v, e⟩ := hall t ht r hr
  rw [e]

theorem authors_read {p : Paper} (hpok : PaperOk p) {l : List Str} (hl : Lists ", " (p "Authors") l) :
    value W before "authorsShort" (toRec p) = .ok (if l = [] then none else some (.texts l)) :=
  value_list W before hpok "Authors" ", " "authorsShort" (by decide +kernel) (.inr (by decide +kernel)) l hl

theorem frame_cols (ho : ∀ rs, (order rs).Perm rs) (hf : FileOk papers) (genders : Model.Scopus.Rec → Nat × Nat × Nat) {cols : List String} (only : Option (List Str))
    (hfe : Model.Tables.retrievedFields (Model.TagNames.fullToTag.get? ·) (Model.TagNames.wosTags.get? ·) only false
      (dictView W before genders).keys (order (papers.map toRec)) = some (cols.map String.toList))
    (hadd : ∀ c ∈ cols, c ∉ ["num-Authors", "num-Male", "num-Female", "num-Unknown"]) {cell : String → Paper → Option SVal}
    (hval : ∀ c ∈ cols, ∀ p ∈ papers, value W before c (toRec p) = .ok (cell c p)) {authors : Paper → List Str}
    (hau : ∀ p ∈ papers, Lists ", " (p "Authors") (authors p)) (na gc : Bool) :
    ∃ (d : Dict Str (List (Option SVal))) (inOrder : List Paper),
      frame W before order genders only false na gc (fileText papers) = some (.ok (some d)) ∧ inOrder.Perm papers ∧
      (∀ t : String, t.toList ∈ d.keys ↔ t ∈ cols ∨ (na ∧ t = "num-Authors") ∨ (gc ∧ (t = "num-Male" ∨ t = "num-Female" ∨ t = "num-Unknown"))) ∧
      (∀ c ∈ cols, d.get? c.toList = some (inOrder.map (cell c))) ∧
      (na = true → d.get? "num-Authors".toList = some (inOrder.map (fun p => some (.num (authors p).length)))) ∧
      (gc = true → d.get? "num-Male".toList = some (inOrder.map (fun p => some (.num (genders (toRec p)).1))) ∧
        d.get? "num-Female".toList = some (inOrder.map (fun p => some (.num (genders (toRec p)).2.1))) ∧
        d.get? "num-Unknown".toList = some (inOrder.map (fun p => some (.num (genders (toRec p)).2.2)))) := by
  have hnot : ∀ x ∈ ["num-Authors", "num-Male", "num-Female", "num-Unknown"], x.toList ∉ cols.map String.toList := by
    intro x hx hm
    obtain ⟨c, hc', e⟩ := List.mem_map.1 hm
    exact hadd c hc' (by rw [String.toList_inj.1 e]; exact hx)
  obtain ⟨l, hl⟩ := readAll_ok before (names := cols.map String.toList ++ (if na then ["authorsShort".toList] else [])) (rs := order (papers.map toRec)) (by
    intro t ht r hr
    obtain ⟨p, hp, hpok, rfl⟩ := of_order ho hf hr
    rcases List.mem_append.1 ht with ht | ht
    · obtain ⟨c, hc', rfl⟩ := List.mem_map.1 ht
      exact ⟨_, by rw [String.ofList_toList]; exact hval c hc' p hp⟩
    · by_cases hn : na = true
      · rw [if_pos hn, List.mem_singleton] at ht
        exact ⟨_, by rw [ht]; exact authors_read before hpok (hau p hp)⟩
      · rw [if_neg hn] at ht; cases ht)
  obtain ⟨d, d1, d2, d3, dg, d5⟩ := Verif.Props.C26_columns_partial Model.FileFrames.extras (Model.TagNames.fullToTag.get? ·) (Model.TagNames.wosTags.get? ·) (dictView W before genders)
    only false na gc (order (papers.map toRec)) _ hfe (fun _ => hnot "num-Authors" (by decide))
    (fun _ => ⟨hnot "num-Male" (by decide), hnot "num-Female" (by decide), hnot "num-Unknown" (by decide)⟩) (by decide +kernel)
  obtain ⟨of, hof⟩ := paper_of hf
  have o1 : ((order (papers.map toRec)).map of).Perm papers := by
    have := (ho (papers.map toRec)).map of
    rw [List.map_map] at this
    refine this.trans (List.Perm.of_eq ?_)
    conv => rhs; rw [← List.map_id papers]
    exact List.map_congr_left (fun p hp => hof p hp)
  have key : ∀ (g : Model.Scopus.Rec → Option SVal) (q : Paper → Option SVal), (∀ p ∈ papers, PaperOk p → g (toRec p) = q p) →
      (order (papers.map toRec)).map g = ((order (papers.map toRec)).map of).map q := by
    intro g q hg
    rw [List.map_map]
    apply List.map_congr_left
    intro r hr
    obtain ⟨p, hp, hpok, rfl⟩ := of_order ho hf hr
    show g (toRec p) = q (of (toRec p))
    rw [hof p hp, hg p hp hpok]
  refine ⟨d, _, ?_, o1, fun t => ?_, fun c hc' => ?_, fun hn => ?_, fun hg => ?_⟩
  · unfold frame
    rw [records_eq order hf]
    simp only [Option.map_some]
    rw [hfe]
    simp only [Option.getD_some]
    rw [hl, d1]
    rfl
  · rw [d5, List.mem_map]
    refine or_congr ⟨fun ⟨c, h1, h2⟩ => by rw [← String.toList_inj.1 h2]; exact h1, fun h1 => ⟨t, h1, rfl⟩⟩ (or_congr (and_congr Iff.rfl ?_)
      (and_congr Iff.rfl (or_congr ?_ (or_congr ?_ ?_)))) <;> exact ⟨fun e => String.toList_inj.1 e, fun e => by rw [e]; rfl⟩
  · rw [d2 _ (List.mem_map_of_mem hc')]
    refine congrArg some (key _ _ (fun p hp _ => ?_))
    show (match value W before (String.ofList c.toList) (toRec p) with | .ok v => v | .error _ => none) = _
    rw [String.ofList_toList, hval c hc' p hp]
  · refine (d3 hn).trans (congrArg some (key _ _ (fun p hp hpok => ?_)))
    show (match value W before "authorsShort" (toRec p) with | .ok (some (.texts l)) => some (SVal.num l.length) | _ => some (.num 0)) = _
    rw [authors_read before hpok (hau p hp)]
    by_cases hl : authors p = []
    · rw [if_pos hl, hl]; rfl
    · rw [if_neg hl]
  · obtain ⟨e1, e2, e3⟩ := dg hg
    exact ⟨e1.trans (congrArg some (key _ _ (fun _ _ _ => rfl))), e2.trans (congrArg some (key _ _ (fun _ _ _ => rfl))), e3.trans (congrArg some (key _ _ (fun _ _ _ => rfl)))⟩

theorem key_used {p : Paper} (hpok : PaperOk p) (t : Str) : t ∈ (toRec p).fields.map Prod.fst ↔ String.ofList t ∈ columns ∧ (p (String.ofList t)).value ≠ none := by
  have h1 : t ∈ (toRec p).fields.map Prod.fst ↔ (Dict.get? (toRec p).fields t).isSome := Dict.mem_keys_iff _ _
  have h2 := strFields_get? hpok (String.ofList t)
  have h3 : (strFields p).get? (String.ofList t) = Dict.get? (toRec p).fields t := by
    have := ofList_get? (toRec p).fields (String.ofList t)
    rw [String.toList_ofList] at this
    exact this
  rw [h1, ← h3, h2]
  by_cases hc : String.ofList t ∈ columns
  · rw [if_pos hc, Option.isSome_iff_ne_none]; exact ⟨fun h => ⟨hc, h⟩, fun h => h.2⟩
  · rw [if_neg hc]; exact ⟨fun h => (by simp at h), fun h => absurd h.1 hc⟩

/-- **C131, the table.** `makeDict` of a Scopus file without a choice has one column for every column of the file in which some paper has something, and as asked the number of
authors and the counts of genders. A column has one entry for each paper of the file, in an order that is the same for all columns: what the cell of the paper means, and nothing for
an empty one. The counts of genders are those of the record of the paper, `toRec p`. -/
theorem C131_all (ho : ∀ rs, (order rs).Perm rs) (hf : FileOk papers) (hint : ∀ n : Nat, W.prims.int (showNat n) = some (n : Int)) (genders : Model.Scopus.Rec → Nat × Nat × Nat)
    {cell : String → Paper → Option SVal} (hc : ∀ c, Used papers c → Column papers c (cell c)) {authors : Paper → List Str}
    (hau : ∀ p ∈ papers, Lists ", " (p "Authors") (authors p)) (na gc : Bool) :
    ∃ (d : Dict Str (List (Option SVal))) (inOrder : List Paper),
      frame W before order genders none false na gc (fileText papers) = some (.ok (some d)) ∧ inOrder.Perm papers ∧
      (∀ t : String, t.toList ∈ d.keys ↔ Used papers t ∨ (na ∧ t = "num-Authors") ∨ (gc ∧ (t = "num-Male" ∨ t = "num-Female" ∨ t = "num-Unknown"))) ∧
      (∀ c, Used papers c → d.get? c.toList = some (inOrder.map (cell c))) ∧
      (na = true → d.get? "num-Authors".toList = some (inOrder.map (fun p => some (.num (authors p).length)))) ∧
      (gc = true → d.get? "num-Male".toList = some (inOrder.map (fun p => some (.num (genders (toRec p)).1))) ∧
        d.get? "num-Female".toList = some (inOrder.map (fun p => some (.num (genders (toRec p)).2.1))) ∧
        d.get? "num-Unknown".toList = some (inOrder.map (fun p => some (.num (genders (toRec p)).2.2)))) := by
  obtain ⟨tags, _, t2, t3, _⟩ := Verif.Props.C26_fields Model.FileFrames.extras (Model.TagNames.fullToTag.get? ·) (Model.TagNames.wosTags.get? ·) (dictView W before genders)
    (fun r => List.nodup_dedup _) none false na gc (order (papers.map toRec))
  have hmem : ∀ t : Str, t ∈ tags ↔ Used papers (String.ofList t) := by
    intro t
    rw [(t2 (.inl rfl)).2]
    constructor
    · rintro ⟨r, hr, ht⟩
      obtain ⟨p, hp, hpok, rfl⟩ := of_order ho hf hr
      obtain ⟨a, b⟩ := (key_used hpok t).1 (List.mem_dedup.1 ht)
      exact ⟨a, p, hp, b⟩
    · rintro ⟨a, p, hp, b⟩
      exact ⟨toRec p, (ho _).mem_iff.2 (List.mem_map_of_mem hp), List.mem_dedup.2 ((key_used (hf.each p hp) t).2 ⟨a, b⟩)⟩
  have hcol : ∀ c : String, c ∈ tags.map String.ofList ↔ Used papers c := by
    intro c
    rw [List.mem_map]
    exact ⟨fun ⟨t, h1, h2⟩ => h2 ▸ (hmem t).1 h1, fun h => ⟨c.toList, (hmem _).2 (by rw [String.ofList_toList]; exact h), String.ofList_toList⟩⟩
  have hno : ∀ c ∈ columns, c ∉ ["num-Authors", "num-Male", "num-Female", "num-Unknown"] := by decide +kernel
  obtain ⟨d, l, d1, d2, d3, d4, d5, d6⟩ := frame_cols before ho hf genders (cols := tags.map String.ofList) none (by
      rw [t3 rfl, List.map_map]
      refine congrArg some ?_
      conv => lhs; rw [← List.map_id tags]
      exact List.map_congr_left (fun t _ => (String.toList_ofList).symm))
    (fun c hm => hno c ((hcol c).1 hm).1) (cell := cell) (fun c hm p hp => column_value before hint (hc c ((hcol c).1 hm)) hp (hf.each p hp)) hau na gc
  exact ⟨d, l, d1, d2, fun t => (d3 t).trans (or_congr (hcol t) Iff.rfl), fun c hu => d4 c ((hcol c).2 hu), d5, d6⟩

/-- **C131, chosen columns.** Asked for some columns of the file by their names, none of them `DOI`, `ISBN` or `ISSN`, `makeDict` gives these columns and no others, with what the
cells of the papers mean. What is missing is said by `C131_lost`. -/
theorem C131_chosen_partial (ho : ∀ rs, (order rs).Perm rs) (hf : FileOk papers) (hint : ∀ n : Nat, W.prims.int (showNat n) = some (n : Int))
    (genders : Model.Scopus.Rec → Nat × Nat × Nat) {cell : String → Paper → Option SVal} {cols : List String} (hne : cols ≠ []) (hin : ∀ c ∈ cols, c ∈ columns)
    (hno : ∀ c ∈ cols, c ∉ ["DOI", "ISBN", "ISSN"]) (hc : ∀ c ∈ cols, Column papers c (cell c)) {authors : Paper → List Str}
    (hau : ∀ p ∈ papers, Lists ", " (p "Authors") (authors p)) (na gc : Bool) :
    ∃ (d : Dict Str (List (Option SVal))) (inOrder : List Paper),
      frame W before order genders (some (cols.map String.toList)) false na gc (fileText papers) = some (.ok (some d)) ∧ inOrder.Perm papers ∧
      (∀ t : String, t.toList ∈ d.keys ↔ t ∈ cols ∨ (na ∧ t = "num-Authors") ∨ (gc ∧ (t = "num-Male" ∨ t = "num-Female" ∨ t = "num-Unknown"))) ∧
      (∀ c ∈ cols, d.get? c.toList = some (inOrder.map (cell c))) ∧
      (na = true → d.get? "num-Authors".toList = some (inOrder.map (fun p => some (.num (authors p).length)))) ∧
      (gc = true → d.get? "num-Male".toList = some (inOrder.map (fun p => some (.num (genders (toRec p)).1))) ∧
        d.get? "num-Female".toList = some (inOrder.map (fun p => some (.num (genders (toRec p)).2.1))) ∧
        d.get? "num-Unknown".toList = some (inOrder.map (fun p => some (.num (genders (toRec p)).2.2)))) := by
  have hfull : ∀ c ∈ columns, c ∉ ["DOI", "ISBN", "ISSN"] → Model.TagNames.fullToTag.get? c.toList = none := by decide +kernel
  have hadd : ∀ c ∈ columns, c ∉ ["num-Authors", "num-Male", "num-Female", "num-Unknown"] := by decide +kernel
  refine frame_cols before ho hf genders (cols := cols) _ ?_ (fun c hm => hadd c (hin c hm)) (fun c hm p hp => column_value before hint (hc c hm) hp (hf.each p hp)) hau na gc
  unfold Model.Tables.retrievedFields
  rw [if_neg (by decide)]
  refine congrArg some ?_
  obtain ⟨c, cs, rfl⟩ := List.exists_cons_of_ne_nil hne
  show ((c :: cs).map String.toList).map (fun t => (Model.TagNames.fullToTag.get? t).getD t) = _
  rw [List.map_map]
  refine List.map_congr_left (fun x hx => ?_)
  show (Model.TagNames.fullToTag.get? x.toList).getD x.toList = x.toList
  rw [hfull x (hin x hx) (hno x hx)]
  rfl

/-- Names with the column of Scopus files they stand for and the tag of Web of Science that `makeDict` takes them for: three columns, and all the names common to all records
but `id`. -/
def lost : List (String × String × String) :=
  [("DOI", "DOI", "DI"), ("ISBN", "ISBN", "BN"), ("ISSN", "ISSN", "SN"), ("year", "Year", "PY"), ("volume", "Volume", "VL"), ("beginningPage", "Page start", "BP"),
   ("j9", "Abbreviated Source Title", "J9"), ("citations", "References", "CR"), ("authorsShort", "Authors", "AU"), ("authorsFull", "Authors", "AF"), ("title", "Title", "TI"),
   ("journal", "Source title", "SO"), ("keywords", "Index Keywords", "ID"), ("abstract", "Abstract", "AB")]

/-- **The code and the names of columns.** Asked for the column `DOI`, `ISBN` or `ISSN` of a Scopus file, or for a name common to all records such as `title`, `makeDict` gives a column
with another name that has no value for any paper, although each record gives under that name what stands in the column of the file. -/
theorem C131_lost (ho : ∀ rs, (order rs).Perm rs) (hf : FileOk papers) (genders : Model.Scopus.Rec → Nat × Nat × Nat) {authors : Paper → List Str}
    (hau : ∀ p ∈ papers, Lists ", " (p "Authors") (authors p)) : ∀ c ∈ lost, (∀ p ∈ papers, value W before c.1 (toRec p) = value W before c.2.1 (toRec p)) ∧
    ∃ d : Dict Str (List (Option SVal)), frame W before order genders (some [c.1.toList]) false false false (fileText papers) = some (.ok (some d)) ∧
      c.1.toList ∉ d.keys ∧ d.get? c.2.2.toList = some (papers.map (fun _ => none)) := by
  intro c hc
  have h1 : ∀ c ∈ lost, Model.TagNames.fullToTag.get? c.1.toList = some c.2.2.toList ∧ c.2.2 ∉ columns ∧ c.2.2 ≠ "selfCitation" ∧ Dict.get? scopusReads c.2.2 = none ∧ c.1 ≠ c.2.2 ∧
      (c.2.1 ∈ columns ∧ (c.1 = c.2.1 ∨ (c.1, c.2.1) ∈ CommonNames.scopus)) ∧ c.2.2 ∉ ["num-Authors", "num-Male", "num-Female", "num-Unknown"] := by decide +kernel
  obtain ⟨a1, a2, a3, a4, a5, a6, a7⟩ := h1 c hc
  obtain ⟨d, l, d1, d2, d3, d4, _⟩ := frame_cols (W := W) before ho hf genders (cols := [c.2.2]) (some [c.1.toList]) (by
      unfold Model.Tables.retrievedFields
      rw [if_neg (by decide)]
      refine congrArg some ?_
      show [(Model.TagNames.fullToTag.get? c.1.toList).getD c.1.toList] = _
      rw [a1]; rfl) (by rintro x hx; rw [List.mem_singleton.1 hx]; exact a7) (cell := fun _ _ => none)
    (by rintro x hx p hp; rw [List.mem_singleton.1 hx]; exact no_name before (hf.each p hp) a2 a3 a4) hau false false
  refine ⟨fun p hp => by
      rw [value_eq W before (hf.each p hp) c.2.1 c.1 a6.1 a6.2, value_eq W before (hf.each p hp) c.2.1 c.2.1 a6.1 (.inl rfl)], d, d1, fun hm => ?_, ?_⟩
  · rcases (d3 c.1).1 hm with e | ⟨e, _⟩ | ⟨e, _⟩
    · exact a5 (List.mem_singleton.1 e)
    · cases e
    · cases e
  · rw [d4 c.2.2 (by simp)]
    simp only [List.map_const', d2.length_eq]

/-- **The code and long names.** `makeDict` with long names and all tags raises `KeyError` for every Scopus file with a paper in it: the number of a paper has no long name in Web of
Science. -/
theorem C131_long_names (ho : ∀ rs, (order rs).Perm rs) (hf : FileOk papers) (hne : papers ≠ []) (genders : Model.Scopus.Rec → Nat × Nat × Nat) {authors : Paper → List Str}
    (hau : ∀ p ∈ papers, Lists ", " (p "Authors") (authors p)) (na gc : Bool) :
    frame W before order genders none true na gc (fileText papers) = some (.ok none) := by
  obtain ⟨tags, _, t2, _, t4, t5⟩ := Verif.Props.C26_fields Model.FileFrames.extras (Model.TagNames.fullToTag.get? ·) (Model.TagNames.wosTags.get? ·) (dictView W before genders)
    (fun r => List.nodup_dedup _) none true na gc (order (papers.map toRec))
  have hm : "EID".toList ∈ tags := by
    obtain ⟨p, hp⟩ := List.exists_mem_of_ne_nil _ hne
    refine ((t2 (.inl rfl)).2 _).2 ⟨toRec p, (ho _).mem_iff.2 (List.mem_map_of_mem hp), List.mem_dedup.2 ((key_used (hf.each p hp) _).2 ?_)⟩
    rw [String.ofList_toList]
    obtain ⟨v, e⟩ := (hf.each p hp).number
    exact ⟨by decide +kernel, by rw [e]; exact Option.some_ne_none _⟩
  have hno : Model.TagNames.wosTags.get? "EID".toList = none := by decide +kernel
  have hmk := t5.2 ⟨rfl, _, hm, hno⟩
  have hret : Model.Tables.retrievedFields (Model.TagNames.fullToTag.get? ·) (Model.TagNames.wosTags.get? ·) none true (dictView W before genders).keys (order (papers.map toRec)) = none := by
    cases e : Model.Tables.retrievedFields (Model.TagNames.fullToTag.get? ·) (Model.TagNames.wosTags.get? ·) none true (dictView W before genders).keys (order (papers.map toRec)) with
    | none => rfl
    | some fs =>
      have := (t4 rfl fs).1 e
      have h1 : Model.TagNames.wosTags.get? "EID".toList ∈ fs.map some := by rw [← this]; exact List.mem_map_of_mem (f := (Model.TagNames.wosTags.get? ·)) hm
      rw [hno] at h1
      simp at h1
  obtain ⟨l, hl⟩ := readAll_ok (W := W) before (names := if na then ["authorsShort".toList] else []) (rs := order (papers.map toRec)) (by
    intro t ht r hr
    obtain ⟨p, hp, hpok, rfl⟩ := of_order ho hf hr
    by_cases hn : na = true
    · rw [if_pos hn, List.mem_singleton] at ht
      exact ⟨_, by rw [ht]; exact authors_read before hpok (hau p hp)⟩
    · rw [if_neg hn] at ht; cases ht)
  unfold frame
  rw [records_eq order hf]
  simp only [Option.map_some]
  rw [hret]
  simp only [Option.getD_none, List.nil_append]
  rw [hl, hmk]
  rfl

end

/-! ## A file -/

/-- Papers with authors, a year, a title and a DOI. -/
def small : List Paper :=
  [paper [("Authors", .quoted "Ada A., Bob B.".toList), ("Year", .bare "2001".toList), ("DOI", .bare "10.1/x".toList), ("EID", .bare "11".toList)],
   paper [("EID", .bare "12".toList)]]

private theorem small_cells : ∀ p ∈ small, ∀ c ∈ columns, (match p c with
        | .bare s => decide (',' ∉ s ∧ s.getLast? ≠ some '"')
        | .quoted v => decide ('"' ∉ v ∧ v.head? ≠ none ∧ ∀ c ∈ v.head?, c ∉ ['"', ',', '|', '$'])) = true ∧ '\n' ∉ (p c).text ∧ '\r' ∉ (p c).text := by decide +kernel

theorem small_ok : FileOk small where
  each p hp := {
    cells := by
      intro c hc
      obtain ⟨h1, h2⟩ := small_cells p hp c hc
      exact ⟨cell_ok _ h1, h2⟩
    number := by
      have : ∀ p ∈ small, ((p "EID").value).isSome := by decide +kernel
      exact Option.isSome_iff_exists.1 (this p hp) }
  different := by decide +kernel
  notWos := by
    intro p hp hi
    have : ∀ p ∈ small.take 2, Str.contains "VR 1.0".toList (lineText p) = false := by decide +kernel
    have h1 := this p hp
    rw [(Str.contains_iff _ _).2 hi] at h1
    cases h1
  notMedline := by
    intro p hp hi
    have : ∀ p ∈ small.head?, ("PMID- ".toList).isPrefixOf (lineText p) = false := by decide +kernel
    have h1 := this p hp
    rw [List.isPrefixOf_iff_prefix.2 hi] at h1
    cases h1

theorem small_authors : ∀ p ∈ small, Lists ", " (p "Authors") (listed "Authors" ", ".toList p) := by
  intro p hp
  have : ∀ p ∈ small, ((p "Authors").value = none ∧ listed "Authors" ", ".toList p = []) ∨ (listed "Authors" ", ".toList p ≠ [] ∧
    (p "Authors").value = some (", ".toList.intercalate (listed "Authors" ", ".toList p)) ∧ ∀ x ∈ listed "Authors" ", ".toList p, Str.contains ", ".toList x = false) := by decide +kernel
  rcases this p hp with h | ⟨h1, h2, h3⟩
  · exact .inl h
  · exact .inr ⟨h1, h2, fun x hx hi => by have := h3 x hx; rw [(Str.contains_iff _ _).2 hi] at this; cases this⟩

def smallCell (c : String) (p : Paper) : Option SVal :=
  if c = "Authors" then (if listed "Authors" ", ".toList p = [] then none else some (.texts (listed "Authors" ", ".toList p)))
  else if c = "Year" then (if (p "Year").value = none then none else some 2001 : Option Nat).map (fun n : Nat => .num (n : Int))
  else (p c).value.map .text

/-- Without a choice there are the columns of the file that are used; the DOI is there, and is not when it is asked for. -/
example : ∃ (d : Dict Str (List (Option SVal))) (l : List (Option SVal)),
    frame w (fun _ => []) List.reverse (fun _ => (0, 0, 0)) none false true false (fileText small) = some (.ok (some d)) ∧
    d.get? "DOI".toList = some l ∧ l.Perm [some (.text "10.1/x".toList), none] ∧ "Title".toList ∉ d.keys ∧
    ∃ l, d.get? "num-Authors".toList = some l ∧ l.Perm [some (.num 2), some (.num 0)] := by
  have hu : ∀ c, Used small c → c ∈ ["Authors", "Year", "DOI", "EID"] := by
    have : ∀ c ∈ columns, (∃ p ∈ small, (p c).value ≠ none) → c ∈ ["Authors", "Year", "DOI", "EID"] := by decide +kernel
    exact fun c h => this c h.1 h.2
  obtain ⟨d, l, d1, d2, d3, d4, d5, _⟩ := C131_all (W := w) (fun _ => []) List.reverse_perm small_ok ScopusFrames.int_show (fun _ => (0, 0, 0)) (cell := smallCell) (by
      intro c hc
      have hc := hu c hc
      simp only [List.mem_cons, List.not_mem_nil, or_false] at hc
      rcases hc with rfl | rfl | rfl | rfl
      · exact .list "Authors" ", " _ (by decide +kernel) small_authors
      · exact .number "Year" _ (by decide) (by decide +kernel)
      · exact .text "DOI" (by decide +kernel)
      · exact .text "EID" (by decide +kernel)) small_authors true false
  refine ⟨d, _, d1, d4 "DOI" ⟨by decide +kernel, by decide +kernel⟩, (d2.map _).trans (List.Perm.of_eq (by decide +kernel)), fun hm => ?_, _, d5 rfl,
    (d2.map _).trans (List.Perm.of_eq (by decide +kernel))⟩
  rcases (d3 "Title").1 hm with h | ⟨_, e⟩ | ⟨e, _⟩
  · exact absurd (hu _ h) (by decide)
  · exact absurd e (by decide)
  · cases e

example := C131_chosen_partial (W := w) (fun _ => []) List.reverse_perm small_ok ScopusFrames.int_show (fun _ => (0, 0, 0)) (cell := smallCell) (cols := ["Authors", "EID"])
  (by decide) (by decide +kernel) (by decide) (by
    intro c hc
    simp only [List.mem_cons, List.not_mem_nil, or_false] at hc
    rcases hc with rfl | rfl
    · exact .list "Authors" ", " _ (by decide +kernel) small_authors
    · exact .text "EID" (by decide +kernel)) small_authors true true

example := C131_lost (W := w) (fun _ => []) List.reverse_perm small_ok (fun _ => (0, 0, 0)) small_authors ("title", "Title", "TI") (by decide)

example := C131_long_names (W := w) (fun _ => []) List.reverse_perm small_ok (by decide) (fun _ => (0, 0, 0)) small_authors true true

end Verif.Props.ScopusDict
