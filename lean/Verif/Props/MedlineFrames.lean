import Verif.Spec.MedlineFrames
import Verif.Model.MedlineFrames
import Verif.Props.MedlinePipeline
import Verif.Props.MedlineFields
import Verif.Props.FileFrames

/-! # C129: from a Medline file to the table of `makeDict` -/
set_option autoImplicit false
set_option linter.unusedSimpArgs false
namespace Verif.Props.MedlineFrames
open Verif.Py Verif.Model.MedlineFields Verif.Model.WosFields Verif.Model.RecordAccess Verif.Model.MedlinePipeline Verif.Model.MedlineFrames Verif.Spec.MedlinePipeline
  Verif.Spec.MedlineFrames Verif.Model.TagNames Verif.Spec Verif.Lemmas.MedlinePipeline Verif.Props.MedlinePipeline

section
variable {W : World} {order : List Model.Medline.Rec → List Model.Medline.Rec} (before : Model.Medline.Rec → List (Op String PVal)) {papers : List Paper}

theorem foreign_value {p : Paper} (hp : PaperOk W.alpha p) {name : String} (hn : Foreign name) : value W before name (toRec p) = .ok none := by
  have halt : medlineAlt name.toList = none := by
    cases e : medlineAlt name.toList with
    | none => rfl
    | some b =>
      rcases (C47_medline_alternatives _ _).1 e with h | h
      · exact absurd h (hn.1 b).1
      · exact absurd h (hn.1 b).2
  have hkind : medlineKinds.get? name.toList = none := by
    by_contra hne
    obtain ⟨x, hx⟩ := ((MedlineFields.C70_unreadable []).1 _).1 hne
    exact (hn.1 x).1 hx
  have hsp : (cls W).special name = .done (.error .keyError) := by
    apply special_none
    intro hm
    have hall : ∀ s ∈ specialNames, s ∈ common.map String.toList := by decide +kernel
    obtain ⟨s, hs, e⟩ := List.mem_map.1 (hall _ hm)
    exact hn.2 (by rw [← String.toList_inj.1 e]; exact hs)
  have ha : (cls W).alt name = none := by
    show (medlineAlt name.toList).map String.ofList = _
    rw [halt]; rfl
  rw [value_fresh W before hp]
  have : (getitem (cls W) 3 (fresh (strFields p)) name).1 = .error .keyError := by
    unfold getitem
    simp only [fresh, Dict.get?_nil]
    cases hg : (strFields p).get? name with
    | some raw =>
      dsimp only
      rw [store_fst]
      show (match medlineKinds.get? name.toList with | none => Except.error AErr.keyError | some kind => raised PVal.field (process kind raw)) = _
      rw [hkind]
    | none => simp only [altField, ha, hsp, runProg, store]
  rw [this]; rfl

theorem means_proc {tag : String} {vs : List Str} {v : MVal} (hm : Means tag vs v) (hw : ∃ long : String, TagTable.Medline tag.toList long.toList) :
    (cls W).proc tag vs = .ok (.field v) := by
  show (match medlineKinds.get? tag.toList with | none => Except.error AErr.keyError | some kind => raised PVal.field (process kind vs)) = _
  cases hm with
  | list _ _ ht =>
    obtain ⟨long, hw⟩ := hw
    have hall : ∀ t ∈ Verif.Model.TagNames.medlineTags.map Prod.snd,
        t ∉ ["PG", "VI", "DP", "TI", "OTO", "AB", "TA", "JT", "PMID", "AD", "AUID", "GR"].map String.toList → medlineKinds.get? t = some .whole := by decide +kernel
    rw [hall _ (List.mem_map.2 ⟨_, (Verif.Props.mem_medline _ _).2 hw, rfl⟩) (fun hm => ht (by
      obtain ⟨s, hs, e⟩ := List.mem_map.1 hm
      rw [← String.toList_inj.1 e]; exact hs))]
    rfl
  | first _ v vs ht =>
    have hall : ∀ t ∈ ["PG", "VI", "DP", "TI", "OTO", "AB", "TA", "JT"], medlineKinds.get? t.toList = some .first := by decide +kernel
    rw [hall _ ht]; rfl
  | number v vs => rw [show medlineKinds.get? "PMID".toList = some .pmid by decide +kernel]; rfl
  | grants => rw [show medlineKinds.get? "GR".toList = some .grants by decide +kernel]; rfl

theorem known_value {p : Paper} (hp : PaperOk W.alpha p) (hmem : p ∈ papers) {name : String} {cell : Paper → Option MVal} (hn : Known papers name cell) :
    value W before name (toRec p) = .ok ((cell p).map .field) := by
  obtain ⟨tag, long, hw, hk, hna, hall⟩ := hn
  obtain ⟨h1, h2⟩ := hall p hmem
  have hna' : tag.toList ∉ Spec.Medline.attachedTags := by
    intro hm
    have : tag.toList ∈ ["AD", "AUID"].map String.toList := hm
    obtain ⟨s, hs, e⟩ := List.mem_map.1 this
    exact hna (by rw [← String.toList_inj.1 e]; exact hs)
  rw [value_tag W before hp tag long name hw hna' hk]
  unfold direct
  cases hx : cell p with
  | none => rw [if_pos (h1.1 hx)]; rfl
  | some v =>
    rw [if_neg (fun e => by rw [h1.2 e] at hx; cases hx), means_proc (h2 v hx) ⟨long, hw⟩]
    rfl

theorem readAll_ok {names : List Str} {rs : List Model.Medline.Rec} (hall : ∀ t ∈ names, ∀ r ∈ rs, ∃ v, value W before (String.ofList t) r = .ok v) :
    ∃ l, readAll W before names rs = .ok l := by
  refine ⟨_, Lemmas.Pipeline.mapM_ok _ (fun r => names.map (fun t => match value W before (String.ofList t) r with | .ok v => v | .error _ => none)) rs (fun r hr => ?_)⟩
  refine Lemmas.Pipeline.mapM_ok _ _ names (fun t ht => ?_)
  obtain ⟨v, e⟩ := hall t ht r hr
  rw [e]

theorem authors_read {p : Paper} (hp : PaperOk W.alpha p) :
    value W before "authorsShort" (toRec p) = .ok (if valuesOf p "AU" = [] then none else some (.field (.texts (valuesOf p "AU")))) :=
  list_value before hp ⟨"Author", by unfold TagTable.Medline; decide +kernel, .inr (.inr (by decide))⟩ (by unfold ListTag; decide)

/-- Each record is of one paper. -/
theorem papers_of (h : Setting W order) (hf : FileOk W.alpha papers) :
    ∃ of : Model.Medline.Rec → Paper, ((order (papers.map toRec)).map of).Perm papers ∧ ∀ p ∈ papers, of (toRec p) = p := by
  classical
  have hinj : ∀ p ∈ papers, ∀ q ∈ papers, toRec p = toRec q → p = q := by
    intro p hp q hq e
    by_contra hne
    exact hne (List.inj_on_of_nodup_map (distinct hf) hp hq (by rw [e]))
  let of : Model.Medline.Rec → Paper := fun r => if hr : ∃ p ∈ papers, toRec p = r then hr.choose else []
  have hof : ∀ p ∈ papers, of (toRec p) = p := by
    intro p hp
    have hr : ∃ q ∈ papers, toRec q = toRec p := ⟨p, hp, rfl⟩
    show (if hr : ∃ q ∈ papers, toRec q = toRec p then hr.choose else []) = p
    rw [dif_pos hr]
    exact hinj _ hr.choose_spec.1 _ hp hr.choose_spec.2
  refine ⟨of, ?_, hof⟩
  have := (h.perm (papers.map toRec)).map of
  rw [List.map_map] at this
  refine this.trans (List.Perm.of_eq ?_)
  conv => rhs; rw [← List.map_id papers]
  exact List.map_congr_left (fun p hp => hof p hp)

theorem full_none {k : Str} (h : ∀ t, ¬ TagTable.Wos t k) : Model.TagNames.fullToTag.get? k = none := by
  cases e : Model.TagNames.fullToTag.get? k with
  | none => rfl
  | some t =>
    have hall : ∀ q ∈ Model.TagNames.fullToTag, (q.2, q.1) ∈ Model.TagNames.wosTags := by decide +kernel
    exact absurd ((mem_wos _ _).1 (hall _ (Dict.mem_of_get? e))) (h t)

theorem frame_cols (h : Setting W order) (hf : FileOk W.alpha papers) (genders : Model.Medline.Rec → Nat × Nat × Nat) {cols : List (String × String)} (only : Option (List Str))
    (hfe : Model.Tables.retrievedFields (Model.TagNames.fullToTag.get? ·) (Model.TagNames.wosTags.get? ·) only false
      (dictView W before genders).keys (order (papers.map toRec)) = some (cols.map (fun c => c.2.toList)))
    (hadd : ∀ c ∈ cols, c.2 ∉ ["num-Authors", "num-Male", "num-Female", "num-Unknown"]) {cell : String → Paper → Option MVal}
    (hc : ∀ c ∈ cols, Known papers c.2 (cell c.2) ∨ (Foreign c.2 ∧ ∀ p ∈ papers, cell c.2 p = none)) (na gc : Bool) :
    ∃ (d : Dict Str (List (Option PVal))) (inOrder : List Paper),
      frame W before order genders only false na gc (fileText papers) = some (.ok (some d)) ∧ inOrder.Perm papers ∧
      (∀ t : String, t.toList ∈ d.keys ↔ (∃ c ∈ cols, t = c.2) ∨ (na ∧ t = "num-Authors") ∨ (gc ∧ (t = "num-Male" ∨ t = "num-Female" ∨ t = "num-Unknown"))) ∧
      (∀ c ∈ cols, d.get? c.2.toList = some (inOrder.map (fun p => (cell c.2 p).map .field))) ∧
      (na = true → d.get? "num-Authors".toList = some (inOrder.map (fun p => some (.made (.num (valuesOf p "AU").length))))) ∧
      (gc = true → d.get? "num-Male".toList = some (inOrder.map (fun p => some (.made (.num (genders (toRec p)).1)))) ∧
        d.get? "num-Female".toList = some (inOrder.map (fun p => some (.made (.num (genders (toRec p)).2.1)))) ∧
        d.get? "num-Unknown".toList = some (inOrder.map (fun p => some (.made (.num (genders (toRec p)).2.2))))) := by
  have hval : ∀ c ∈ cols, ∀ p ∈ papers, value W before c.2 (toRec p) = .ok ((cell c.2 p).map .field) := by
    intro c hc' p hp
    rcases hc c hc' with hk | ⟨hk, hn⟩
    · exact known_value before (hf.each p hp) hp hk
    · rw [foreign_value before (hf.each p hp) hk, hn p hp]; rfl
  have hnot : ∀ x ∈ ["num-Authors", "num-Male", "num-Female", "num-Unknown"], x.toList ∉ cols.map (fun c => c.2.toList) := by
    intro x hx hm
    obtain ⟨c, hc', e⟩ := List.mem_map.1 hm
    exact hadd c hc' (by rw [String.toList_inj.1 e]; exact hx)
  obtain ⟨l, hl⟩ := readAll_ok before (names := cols.map (fun c => c.2.toList) ++ (if na then ["authorsShort".toList] else [])) (rs := order (papers.map toRec)) (by
    intro t ht r hr
    obtain ⟨p, hp, hpok, rfl⟩ := of_order h hf hr
    rcases List.mem_append.1 ht with ht | ht
    · obtain ⟨c, hc', rfl⟩ := List.mem_map.1 ht
      exact ⟨_, by rw [String.ofList_toList]; exact hval c hc' p hp⟩
    · by_cases hn : na = true
      · rw [if_pos hn, List.mem_singleton] at ht
        exact ⟨_, by rw [ht]; exact authors_read before hpok⟩
      · rw [if_neg hn] at ht; cases ht)
  obtain ⟨d, d1, d2, d3, dg, d5⟩ := Verif.Props.C26_columns_partial Model.FileFrames.extras (Model.TagNames.fullToTag.get? ·) (Model.TagNames.wosTags.get? ·) (dictView W before genders)
    only false na gc (order (papers.map toRec)) _ hfe (fun _ => hnot "num-Authors" (by decide))
    (fun _ => ⟨hnot "num-Male" (by decide), hnot "num-Female" (by decide), hnot "num-Unknown" (by decide)⟩) (by decide +kernel)
  obtain ⟨of, o1, o2⟩ := papers_of h hf
  refine ⟨d, _, ?_, o1, fun t => ?_, fun c hc' => ?_, fun hn => ?_, fun hg => ?_⟩
  · unfold frame
    rw [records_eq W order h.classes hf]
    simp only [Option.map_some]
    rw [hfe]
    simp only [Option.getD_some]
    rw [hl, d1]
    rfl
  · rw [d5, List.mem_map]
    refine or_congr ⟨fun ⟨c, h1, h2⟩ => ⟨c, h1, (String.toList_inj.1 h2).symm⟩, fun ⟨c, h1, h2⟩ => ⟨c, h1, by rw [h2]⟩⟩ (or_congr (and_congr Iff.rfl ?_)
      (and_congr Iff.rfl (or_congr ?_ (or_congr ?_ ?_)))) <;> exact ⟨fun e => String.toList_inj.1 e, fun e => by rw [e]; rfl⟩
  · rw [d2 _ (List.mem_map_of_mem hc'), List.map_map]
    congr 1
    apply List.map_congr_left
    intro r hr
    obtain ⟨p, hp, hpok, rfl⟩ := of_order h hf hr
    show (match value W before (String.ofList c.2.toList) (toRec p) with | .ok v => v | .error _ => none) = (cell c.2 (of (toRec p))).map .field
    rw [String.ofList_toList, hval c hc' p hp, o2 p hp]
  · refine (d3 hn).trans ?_
    rw [List.map_map]
    congr 1
    apply List.map_congr_left
    intro r hr
    obtain ⟨p, hp, hpok, rfl⟩ := of_order h hf hr
    show (match value W before "authorsShort" (toRec p) with | .ok (some (.field (.texts l))) => some (PVal.made (.num l.length)) | _ => some (.made (.num 0))) =
      some (.made (.num (valuesOf (of (toRec p)) "AU").length))
    rw [authors_read before hpok, o2 p hp]
    by_cases hl : valuesOf p "AU" = []
    · rw [if_pos hl, hl]; rfl
    · rw [if_neg hl]
  · obtain ⟨e1, e2, e3⟩ := dg hg
    have key : ∀ g : Model.Medline.Rec → Option PVal, (order (papers.map toRec)).map g = ((order (papers.map toRec)).map of).map (fun p => g (toRec p)) := by
      intro g
      rw [List.map_map]
      apply List.map_congr_left
      intro r hr
      obtain ⟨p, hp, _, rfl⟩ := of_order h hf hr
      show g (toRec p) = g (toRec (of (toRec p)))
      rw [o2 p hp]
    exact ⟨e1.trans (congrArg some (key _)), e2.trans (congrArg some (key _)), e3.trans (congrArg some (key _))⟩

/-- **C129, the table.** `makeDict` of a Medline file with chosen names. A name that is the long name of a tag of Web of Science stands for that tag, and any other for
itself. There is one column for each, with one entry for each paper of the file, in an order that is the same for all columns: what the paper has in Medline under the name of the
column, and nothing where there is none or where the name means nothing in Medline. The counts of genders are those of the record of the paper, `toRec p`. -/
theorem C129_frame (h : Setting W order) (hf : FileOk W.alpha papers) (genders : Model.Medline.Rec → Nat × Nat × Nat) {cols : List (String × String)} (hne : cols ≠ [])
    (hcols : ∀ c ∈ cols, TagTable.Wos c.2.toList c.1.toList ∨ (c.2 = c.1 ∧ ∀ t, ¬ TagTable.Wos t c.1.toList))
    (hadd : ∀ c ∈ cols, c.2 ∉ ["num-Authors", "num-Male", "num-Female", "num-Unknown"]) {cell : String → Paper → Option MVal}
    (hc : ∀ c ∈ cols, Known papers c.2 (cell c.2) ∨ (Foreign c.2 ∧ ∀ p ∈ papers, cell c.2 p = none)) (na gc : Bool) :
    ∃ (d : Dict Str (List (Option PVal))) (inOrder : List Paper),
      frame W before order genders (some (cols.map (fun c => c.1.toList))) false na gc (fileText papers) = some (.ok (some d)) ∧ inOrder.Perm papers ∧
      (∀ t : String, t.toList ∈ d.keys ↔ (∃ c ∈ cols, t = c.2) ∨ (na ∧ t = "num-Authors") ∨ (gc ∧ (t = "num-Male" ∨ t = "num-Female" ∨ t = "num-Unknown"))) ∧
      (∀ c ∈ cols, d.get? c.2.toList = some (inOrder.map (fun p => (cell c.2 p).map .field))) ∧
      (na = true → d.get? "num-Authors".toList = some (inOrder.map (fun p => some (.made (.num (valuesOf p "AU").length))))) ∧
      (gc = true → d.get? "num-Male".toList = some (inOrder.map (fun p => some (.made (.num (genders (toRec p)).1)))) ∧
        d.get? "num-Female".toList = some (inOrder.map (fun p => some (.made (.num (genders (toRec p)).2.1)))) ∧
        d.get? "num-Unknown".toList = some (inOrder.map (fun p => some (.made (.num (genders (toRec p)).2.2))))) := by
  have hfe : Model.Tables.retrievedFields (Model.TagNames.fullToTag.get? ·) (Model.TagNames.wosTags.get? ·) (some (cols.map (fun c => c.1.toList))) false
      (dictView W before genders).keys (order (papers.map toRec)) = some (cols.map (fun c => c.2.toList)) := by
    have hmap : (cols.map (fun c => c.1.toList)).map (fun t => (Model.TagNames.fullToTag.get? t).getD t) = cols.map (fun c => c.2.toList) := by
      rw [List.map_map]
      apply List.map_congr_left
      intro c hc'
      show (Model.TagNames.fullToTag.get? c.1.toList).getD c.1.toList = _
      rcases hcols c hc' with hw | ⟨e, hw⟩
      · rw [(FileExports.table (c.2.toList, c.1.toList) hw).1]; rfl
      · rw [full_none hw, e]; rfl
    unfold Model.Tables.retrievedFields
    cases cols with
    | nil => exact absurd rfl hne
    | cons c cs =>
      rw [if_neg (by decide)]
      exact congrArg some hmap
  exact frame_cols before h hf genders _ hfe hadd hc na gc

/-- **C129, all columns.** `makeDict` of a Medline file without a choice: one column for every tag that some paper has, and no others but the added ones. Missing: files with
tags that belong to an author (`AD`, `AUID`), which `Known` leaves out, and tags that are not in the table of Medline. -/
theorem C129_all_partial (h : Setting W order) (hf : FileOk W.alpha papers) (genders : Model.Medline.Rec → Nat × Nat × Nat) {cell : String → Paper → Option MVal}
    (hc : ∀ t : String, (∃ p ∈ papers, ∃ e ∈ p, e.1 = t.toList) → Known papers t (cell t)) (na gc : Bool) :
    ∃ (d : Dict Str (List (Option PVal))) (inOrder : List Paper),
      frame W before order genders none false na gc (fileText papers) = some (.ok (some d)) ∧ inOrder.Perm papers ∧
      (∀ t : String, t.toList ∈ d.keys ↔ (∃ p ∈ papers, ∃ e ∈ p, e.1 = t.toList) ∨ (na ∧ t = "num-Authors") ∨ (gc ∧ (t = "num-Male" ∨ t = "num-Female" ∨ t = "num-Unknown"))) ∧
      (∀ t : String, (∃ p ∈ papers, ∃ e ∈ p, e.1 = t.toList) → d.get? t.toList = some (inOrder.map (fun p => (cell t p).map .field))) := by
  obtain ⟨tags, _, t2, t3, _⟩ := Verif.Props.C26_fields Model.FileFrames.extras (Model.TagNames.fullToTag.get? ·) (Model.TagNames.wosTags.get? ·) (dictView W before genders)
    (fun r => List.nodup_dedup _) none false na gc (order (papers.map toRec))
  have hknown : ∀ t : String, (∃ p ∈ papers, ∃ e ∈ p, e.1 = t.toList) → t.toList ∉ Spec.Medline.attachedTags ∧ t ∉ ["num-Authors", "num-Male", "num-Female", "num-Unknown"] := by
    intro t ht
    obtain ⟨tag, long, hw, hk, hna, _⟩ := hc t ht
    have hm := (mem_medline _ _).2 hw
    have hall : ∀ q ∈ Model.TagNames.medlineTags, ∀ x ∈ ["num-Authors", "num-Male", "num-Female", "num-Unknown"], q.1 ≠ x.toList ∧ q.2 ≠ x.toList := by decide +kernel
    have hatt : ∀ q ∈ Model.TagNames.medlineTags, q.1 ∉ Spec.Medline.attachedTags := by decide +kernel
    refine ⟨fun hx => ?_, fun hx => ?_⟩
    · rcases hk with rfl | rfl
      · have : t.toList ∈ ["AD", "AUID"].map String.toList := hx
        obtain ⟨s, hs, e⟩ := List.mem_map.1 this
        exact hna (by rw [← String.toList_inj.1 e]; exact hs)
      · exact hatt _ hm hx
    · rcases hk with rfl | rfl
      · exact (hall _ hm _ hx).2 rfl
      · exact (hall _ hm _ hx).1 rfl
  have hmem : ∀ t : Str, t ∈ tags ↔ ∃ p ∈ papers, ∃ e ∈ p, e.1 = t := by
    intro t
    rw [(t2 (.inl rfl)).2]
    constructor
    · rintro ⟨r, hr, ht⟩
      obtain ⟨p, hp, _, rfl⟩ := of_order h hf hr
      exact ⟨p, hp, key_tag p t ((Dict.mem_keys_iff _ _).1 (List.mem_dedup.1 ht))⟩
    · rintro ⟨p, hp, e, he, rfl⟩
      refine ⟨toRec p, (h.perm _).mem_iff.2 (List.mem_map_of_mem hp), List.mem_dedup.2 ?_⟩
      have h1 := (hknown (String.ofList e.1) ⟨p, hp, e, he, (String.toList_ofList).symm⟩).1
      have h2 := get?_values p (String.ofList e.1) h1
      rw [String.toList_ofList, if_neg (by
        intro hn
        have : "\n".toList.intercalate e.2 ∈ valuesOf p (String.ofList e.1) := List.mem_map.2 ⟨e, List.mem_filter.2 ⟨he, by simp⟩, rfl⟩
        rw [hn] at this; cases this)] at h2
      exact List.mem_map.2 ⟨_, Dict.mem_of_get? h2, rfl⟩
  have hmem' : ∀ t : String, t.toList ∈ tags ↔ ∃ p ∈ papers, ∃ e ∈ p, e.1 = t.toList := fun t => hmem _
  have hcol : ∀ c : String × String, c ∈ tags.map (fun t => (String.ofList t, String.ofList t)) → c.2.toList ∈ tags := by
    intro c hm
    obtain ⟨t, ht, rfl⟩ := List.mem_map.1 hm
    rw [String.toList_ofList]; exact ht
  have hin : ∀ t : String, t.toList ∈ tags → (t, t) ∈ tags.map (fun t => (String.ofList t, String.ofList t)) :=
    fun t ht => List.mem_map.2 ⟨_, ht, by rw [String.ofList_toList]⟩
  obtain ⟨d, l, d1, d2, d3, d4, _⟩ := frame_cols before h hf genders (cols := tags.map (fun t => (String.ofList t, String.ofList t))) none (by
      rw [t3 rfl, List.map_map]
      refine congrArg some ?_
      conv => lhs; rw [← List.map_id tags]
      exact List.map_congr_left (fun t _ => (String.toList_ofList).symm))
    (fun c hm => (hknown c.2 ((hmem' _).1 (hcol c hm))).2) (cell := cell) (fun c hm => .inl (hc c.2 ((hmem' _).1 (hcol c hm)))) na gc
  refine ⟨d, l, d1, d2, fun t => (d3 t).trans (or_congr ?_ Iff.rfl), fun t ht => d4 (t, t) (hin t ((hmem' t).2 ht))⟩
  rw [← hmem']
  exact ⟨fun ⟨c, hm, e⟩ => e ▸ hcol c hm, fun ht => ⟨_, hin t ht, rfl⟩⟩

/-- The names of fields that a Medline record knows, and that `makeDict` takes for names of Web of Science, with what it takes them for. -/
def lost : List (String × String) :=
  [("year", "PY"), ("month", "PD"), ("volume", "VL"), ("beginningPage", "BP"), ("DOI", "DI"), ("j9", "J9"), ("authorsFull", "AF"), ("keywords", "ID"), ("ISBN", "BN"),
   ("ISSN", "SN")]

theorem lost_foreign : ∀ c ∈ lost, TagTable.Wos c.2.toList c.1.toList ∧ Foreign c.2 := by
  have h1 : ∀ c ∈ lost, (c.2.toList, c.1.toList) ∈ Model.TagNames.wosTags := by decide +kernel
  have h2 : ∀ c ∈ lost, ∀ q ∈ Model.TagNames.medlineTags, q.1 ≠ c.2.toList ∧ q.2 ≠ c.2.toList := by decide +kernel
  have h3 : ∀ c ∈ lost, c.2 ∉ common := by decide +kernel
  intro c hc
  refine ⟨(mem_wos _ _).1 (h1 c hc), fun x => ⟨fun hx => (h2 c hc _ ((mem_medline _ _).2 hx)).2 rfl, fun hx => (h2 c hc _ ((mem_medline _ _).2 hx)).1 rfl⟩, h3 c hc⟩

/-- **The code and Medline names.** Asked for the year, the keywords, the full names of authors and others by the names that Medline records know, `makeDict` gives a column with
another name that has no value for any paper, whatever the papers have there. -/
theorem C129_lost (h : Setting W order) (hf : FileOk W.alpha papers) (genders : Model.Medline.Rec → Nat × Nat × Nat) : ∀ c ∈ lost,
    ∃ d : Dict Str (List (Option PVal)), frame W before order genders (some [c.1.toList]) false false false (fileText papers) = some (.ok (some d)) ∧
      c.1.toList ∉ d.keys ∧ d.get? c.2.toList = some (papers.map (fun _ => none)) := by
  intro c hc
  obtain ⟨w1, w2⟩ := lost_foreign c hc
  have h3 : ∀ c ∈ lost, c.2 ∉ ["num-Authors", "num-Male", "num-Female", "num-Unknown"] ∧ c.1 ≠ c.2 := by decide +kernel
  obtain ⟨d, l, d1, d2, d3, d4, _⟩ := C129_frame before h hf genders (cols := [c]) (by simp) (by rintro _ (_ | ⟨_, ⟨⟩⟩); exact .inl w1)
    (by rintro _ (_ | ⟨_, ⟨⟩⟩); exact (h3 c hc).1) (cell := fun _ _ => none) (by rintro _ (_ | ⟨_, ⟨⟩⟩); exact .inr ⟨w2, fun _ _ => rfl⟩) false false
  refine ⟨d, d1, fun hm => ?_, ?_⟩
  · rcases (d3 c.1).1 hm with ⟨c', hc', e⟩ | ⟨e, _⟩ | ⟨e, _⟩
    · rw [List.mem_singleton.1 hc'] at e; exact (h3 c hc).2 e
    · cases e
    · cases e
  · rw [d4 c (by simp)]
    simp only [Option.map_none, List.map_const', d2.length_eq]

/-- **The code and long names.** `makeDict` with long names and all tags raises `KeyError` for every Medline file: the number of a paper has no long name in Web of
Science. -/
theorem C129_long_names (h : Setting W order) (hf : FileOk W.alpha papers) (genders : Model.Medline.Rec → Nat × Nat × Nat) (na gc : Bool) :
    frame W before order genders none true na gc (fileText papers) = some (.ok none) := by
  obtain ⟨tags, _, t2, _, t4, t5⟩ := Verif.Props.C26_fields Model.FileFrames.extras (Model.TagNames.fullToTag.get? ·) (Model.TagNames.wosTags.get? ·) (dictView W before genders)
    (fun r => List.nodup_dedup _) none true na gc (order (papers.map toRec))
  have hm : "PMID".toList ∈ tags := by
    obtain ⟨p, hp⟩ := List.exists_mem_of_ne_nil _ hf.some
    refine ((t2 (.inl rfl)).2 _).2 ⟨toRec p, (h.perm _).mem_iff.2 (List.mem_map_of_mem hp), ?_⟩
    show _ ∈ ((fieldsOf p).map Prod.fst).dedup
    rw [List.mem_dedup]
    obtain ⟨vs, e⟩ := pmid_field (hf.each p hp)
    exact List.mem_map.2 ⟨_, Dict.mem_of_get? e, rfl⟩
  have hno : Model.TagNames.wosTags.get? "PMID".toList = none := by decide +kernel
  have hmk := t5.2 ⟨rfl, _, hm, hno⟩
  have hret : Model.Tables.retrievedFields (Model.TagNames.fullToTag.get? ·) (Model.TagNames.wosTags.get? ·) none true (dictView W before genders).keys (order (papers.map toRec)) = none := by
    cases e : Model.Tables.retrievedFields (Model.TagNames.fullToTag.get? ·) (Model.TagNames.wosTags.get? ·) none true (dictView W before genders).keys (order (papers.map toRec)) with
    | none => rfl
    | some fs =>
      have := (t4 rfl fs).1 e
      have h1 : Model.TagNames.wosTags.get? "PMID".toList ∈ fs.map some := by rw [← this]; exact List.mem_map_of_mem (f := (Model.TagNames.wosTags.get? ·)) hm
      rw [hno] at h1
      simp at h1
  obtain ⟨l, hl⟩ := readAll_ok before (names := if na then ["authorsShort".toList] else []) (rs := order (papers.map toRec)) (by
    intro t ht r hr
    obtain ⟨p, hp, hpok, rfl⟩ := of_order h hf hr
    by_cases hn : na = true
    · rw [if_pos hn, List.mem_singleton] at ht
      exact ⟨_, by rw [ht]; exact authors_read before hpok⟩
    · rw [if_neg hn] at ht; cases ht)
  unfold frame
  rw [records_eq W order h.classes hf]
  simp only [Option.map_some]
  rw [hret]
  simp only [Option.getD_none, List.nil_append]
  rw [hl, hmk]
  rfl

end

/-! ## A file -/

example : ∃ (d : Dict Str (List (Option PVal))) (inOrder : List Paper),
    frame w (fun _ => [.item "TI"]) List.reverse (fun _ => (1, 0, 0)) (some ["MeSHTerms".toList, "title".toList, "year".toList]) false true false (fileText file) = some (.ok (some d)) ∧
    inOrder.Perm file ∧ "PY".toList ∈ d.keys ∧ "year".toList ∉ d.keys ∧
    d.get? "MeSHTerms".toList = some (inOrder.map (fun p => (if valuesOf p "MH" = [] then none else some (.texts (valuesOf p "MH"))).map .field)) ∧
    d.get? "TI".toList = some (inOrder.map (fun p => ((valuesOf p "TI").head?.map MVal.text).map .field)) ∧
    d.get? "PY".toList = some (inOrder.map (fun _ => none)) := by
  obtain ⟨d, l, d1, d2, d3, d4, _⟩ := C129_frame (W := w) (fun _ => [.item "TI"]) setting file_ok (fun _ => (1, 0, 0)) (cols := [("MeSHTerms", "MeSHTerms"), ("title", "TI"), ("year", "PY")])
    (by simp) (by
      intro c hc
      simp only [List.mem_cons, List.not_mem_nil, or_false] at hc
      rcases hc with rfl | rfl | rfl
      · refine .inr ⟨rfl, fun t ht => ?_⟩
        have hno : ∀ q ∈ Model.TagNames.wosTags, q.2 ≠ "MeSHTerms".toList := by decide +kernel
        exact hno _ ((mem_wos _ _).2 ht) rfl
      · exact .inl ((mem_wos _ _).1 (by decide +kernel))
      · exact .inl ((mem_wos _ _).1 (by decide +kernel))) (by decide +kernel)
    (cell := fun k p => if k = "MeSHTerms" then (if valuesOf p "MH" = [] then none else some (.texts (valuesOf p "MH"))) else if k = "TI" then (valuesOf p "TI").head?.map MVal.text
      else none) (by
      intro c hc
      simp only [List.mem_cons, List.not_mem_nil, or_false] at hc
      rcases hc with rfl | rfl | rfl
      · refine .inl ⟨"MH", "MeSHTerms", (mem_medline _ _).1 (by decide +kernel), .inr rfl, by decide, fun p hp => ⟨?_, fun v hv => ?_⟩⟩
        · simp
        · dsimp only at hv
          rw [if_pos rfl] at hv
          by_cases e : valuesOf p "MH" = []
          · rw [if_pos e] at hv; cases hv
          · rw [if_neg e] at hv; cases hv; exact .list _ _ (by unfold ListTag; decide)
      · refine .inl ⟨"TI", "Title", (mem_medline _ _).1 (by decide +kernel), .inl rfl, by decide, fun p hp => ⟨?_, fun v hv => ?_⟩⟩
        · dsimp only
          rw [if_neg (by decide), if_pos rfl]
          cases valuesOf p "TI" <;> simp
        · dsimp only at hv
          rw [if_neg (by decide), if_pos rfl] at hv
          cases hv' : valuesOf p "TI" with
          | nil => rw [hv'] at hv; cases hv
          | cons x xs => rw [hv'] at hv; cases hv; exact .first _ _ _ (by decide)
      · exact .inr ⟨(lost_foreign ("year", "PY") (by decide)).2, fun p _ => by simp⟩) true false
  refine ⟨d, l, d1, d2, (d3 "PY").2 (.inl ⟨("year", "PY"), by simp, rfl⟩), fun hm => ?_, ?_, ?_, ?_⟩
  · exact absurd ((d3 "year").1 hm) (by decide)
  · exact (d4 ("MeSHTerms", "MeSHTerms") (by simp)).trans (by simp)
  · exact (d4 ("title", "TI") (by simp)).trans (by simp)
  · exact (d4 ("year", "PY") (by simp)).trans (by simp)

example := C129_lost (W := w) (fun _ => []) setting file_ok (fun _ => (0, 0, 0)) ("year", "PY") (by decide)

example := C129_long_names (W := w) (fun _ => []) setting file_ok (fun _ => (0, 0, 0)) true true

def small : List Paper :=
  [[("PMID".toList, ["11".toList]), ("TI".toList, ["A long".toList, "title".toList]), ("MH".toList, ["Humans".toList]), ("MH".toList, ["Mice".toList])],
   [("PMID".toList, ["12".toList]), ("MH".toList, ["Mice".toList])]]

theorem small_ok : FileOk w.alpha small where
  some := by decide
  each := by
    intro p hp
    simp only [small, List.mem_cons, List.not_mem_nil, or_false] at hp
    rcases hp with rfl | rfl <;>
    exact {
      first := ⟨_, _, rfl⟩
      tags := by
        intro e he
        have : ∀ e ∈ small.flatten, (e.1 ≠ [] ∧ e.1.length ≤ 4 ∧ (∀ c ∈ e.1, w.alpha c = true)) ∧ '\n' ∉ e.1 ∧ '\r' ∉ e.1 := by decide +kernel
        obtain ⟨⟨a, b, c⟩, d, g⟩ := this e (List.mem_flatten.2 ⟨_, by simp [small], he⟩)
        exact ⟨⟨a, b, c⟩, d, g⟩
      reserved := by decide +kernel
      lines := by decide +kernel }
  different := by decide +kernel
  notWos := by
    have : ∀ p ∈ small, ∀ e ∈ p, Str.contains "VR 1.0".toList (entryText e) = false := by decide +kernel
    intro p hp e he hi
    have h1 := this p (List.mem_of_mem_head? hp) e he
    rw [(Str.contains_iff _ _).2 hi] at h1
    cases h1

def smallCell (k : String) (p : Paper) : Option MVal :=
  if k = "MH" then (if valuesOf p "MH" = [] then none else some (.texts (valuesOf p "MH")))
  else if k = "TI" then (valuesOf p "TI").head?.map MVal.text
  else (valuesOf p "PMID").head?.map (fun v => MVal.text ("PMID:".toList ++ v))

/-- Without a choice there are exactly the columns of the three tags of the file. -/
example : ∃ (d : Dict Str (List (Option PVal))) (l : List (Option PVal)),
    frame w (fun _ => []) List.reverse (fun _ => (0, 0, 0)) none false false false (fileText small) = some (.ok (some d)) ∧
    (∀ t : String, t.toList ∈ d.keys ↔ t ∈ ["PMID", "TI", "MH"]) ∧
    d.get? "MH".toList = some l ∧ l.Perm [some (.field (.texts ["Humans".toList, "Mice".toList])), some (.field (.texts ["Mice".toList]))] := by
  have hin : ∀ t : String, (∃ p ∈ small, ∃ e ∈ p, e.1 = t.toList) ↔ t ∈ ["PMID", "TI", "MH"] := by
    intro t
    simp only [small, List.mem_cons, List.not_mem_nil, or_false, exists_eq_or_imp, exists_eq_left, String.toList_inj]
    constructor
    · rintro ((h | h | h | h) | h | h) <;> subst h <;> decide
    · rintro (h | h | h) <;> subst h <;> decide
  obtain ⟨d, l, d1, d2, d3, d4⟩ := C129_all_partial (W := w) (fun _ => []) setting small_ok (fun _ => (0, 0, 0)) (cell := smallCell) (by
      intro t ht
      have ht := (hin t).1 ht
      simp only [List.mem_cons, List.not_mem_nil, or_false] at ht
      rcases ht with rfl | rfl | rfl
      · refine ⟨"PMID", "PubMedUniqueIdentifier", (mem_medline _ _).1 (by decide +kernel), .inl rfl, by decide, fun p hp => ?_⟩
        unfold smallCell
        rw [if_neg (by decide), if_neg (by decide)]
        cases hv' : valuesOf p "PMID" with
        | nil => exact ⟨by simp, fun v hv => by cases hv⟩
        | cons x xs => exact ⟨by simp, fun v hv => by cases hv; exact .number _ _⟩
      · refine ⟨"TI", "Title", (mem_medline _ _).1 (by decide +kernel), .inl rfl, by decide, fun p hp => ?_⟩
        unfold smallCell
        rw [if_neg (by decide), if_pos rfl]
        cases hv' : valuesOf p "TI" with
        | nil => exact ⟨by simp, fun v hv => by cases hv⟩
        | cons x xs => exact ⟨by simp, fun v hv => by cases hv; exact .first _ _ _ (by decide)⟩
      · refine ⟨"MH", "MeSHTerms", (mem_medline _ _).1 (by decide +kernel), .inl rfl, by decide, fun p hp => ?_⟩
        unfold smallCell
        rw [if_pos rfl]
        by_cases e : valuesOf p "MH" = []
        · rw [if_pos e]; exact ⟨⟨fun _ => e, fun _ => rfl⟩, fun v hv => by cases hv⟩
        · rw [if_neg e]; exact ⟨⟨fun h => (by cases h), fun h => absurd h e⟩, fun v hv => by cases hv; exact .list _ _ (by unfold ListTag; decide)⟩) false false
  refine ⟨d, _, d1, fun t => ?_, d4 "MH" ((hin _).2 (by decide)), (d2.map _).trans (List.Perm.of_eq (by decide +kernel))⟩
  rw [d3, hin]
  simp

end Verif.Props.MedlineFrames
