import Verif.Model.ScopusPipeline
import Verif.Spec.ScopusPipeline
import Verif.Props.Scopus
import Verif.Props.OtherFields
import Verif.Props.CommonNames
import Verif.Lemmas.Pipeline

/-! # Lemmas for C109 -/
set_option autoImplicit false
set_option linter.unusedSimpArgs false
namespace Verif.Lemmas.ScopusPipeline
open Verif.Py Verif.Model.Scopus Verif.Model.OtherFields Verif.Model.RecordAccess Verif.Model.ScopusPipeline Verif.Spec.ScopusPipeline
  Verif.Spec.Scopus Verif.Lemmas.Scopus Verif.Props Verif.Props.ScopusFiles Verif.Model.WosFields

/-- The record of a paper. -/
def toRec (p : Paper) : Model.Scopus.Rec := ofString scopusHeader (lineText p)

theorem header_columns : scopusHeader = columns.map String.toList := rfl

theorem columns_nodup : columns.Nodup := by decide +kernel

def row (p : Paper) : List (Str × Cell) := columns.map (fun c => (c.toList, p c))

theorem row_fst (p : Paper) : (row p).map Prod.fst = scopusHeader := by
  unfold row; rw [List.map_map]; rfl

theorem toRec_spec {p : Paper} (h : PaperOk p) : (∀ c ∈ columns, Dict.get? (toRec p).fields c.toList = (p c).value) ∧
    (∀ k, k ∉ columns.map String.toList → Dict.get? (toRec p).fields k = none) ∧
    (toRec p).id = some ("EID:".toList ++ (p "EID").value.getD []) ∧ (toRec p).bad = false := by
  obtain ⟨d, h1, h2, h3⟩ := C33_line_partial (row p) (by simp [row, columns]) (by rw [row_fst]; exact header_nodup) (by
    intro kc hk
    obtain ⟨c, hc, rfl⟩ := List.mem_map.1 hk
    exact (h.cells c hc).1) '\n'
  have hl : Str.join [','] ((row p).map (fun kc => kc.2.text)) ++ ['\n'] = lineText p := by
    unfold row lineText
    rw [List.map_map, Verif.Props.Bib.join_intercalate]; rfl
  rw [row_fst, hl] at h1
  rw [row_fst] at h3
  have hcol : ∀ c ∈ columns, Dict.get? d c.toList = (p c).value := fun c hc => h2 _ _ (List.mem_map_of_mem hc)
  obtain ⟨e, he⟩ := h.number
  have hr : toRec p = ⟨d, some ("EID:".toList ++ e), false⟩ := by
    unfold toRec ofString
    rw [h1]
    have : Dict.get? d eid = some e := (hcol "EID" (by decide)).trans he
    simp only [Option.getD_some, this]
  rw [hr, he]
  exact ⟨hcol, h3, rfl, rfl⟩

theorem line_body {p : Paper} (h : PaperOk p) : ∃ b, lineText p = b ++ ['\n'] ∧ '\n' ∉ b ∧ '\r' ∉ b ∧ ',' ∈ b := by
  refine ⟨_, rfl, ?_, ?_, ?_⟩
  · rw [← Verif.Props.Bib.join_intercalate]
    intro hm
    rcases join_mem _ _ _ hm with hm | ⟨x, hx, hm⟩
    · exact absurd hm (by decide)
    · obtain ⟨c, hc, rfl⟩ := List.mem_map.1 hx
      exact (h.cells c hc).2.1 hm
  · rw [← Verif.Props.Bib.join_intercalate]
    intro hm
    rcases join_mem _ _ _ hm with hm | ⟨x, hx, hm⟩
    · exact absurd hm (by decide)
    · obtain ⟨c, hc, rfl⟩ := List.mem_map.1 hx
      exact (h.cells c hc).2.2 hm
  · rw [← Verif.Props.Bib.join_intercalate]
    unfold columns
    rw [List.map_cons, List.map_cons, Str.join_cons _ _ _ (by simp)]
    simp

theorem fileText_eq (papers : List Paper) : fileText papers = '﻿' :: headerLine ++ ['\n'] ++ papers.flatMap lineText := by
  unfold fileText headerLine
  rw [Verif.Props.Bib.join_intercalate, header_columns]

theorem rows_lines {papers : List Paper} (h : ∀ p ∈ papers, PaperOk p) : Lines.lines (papers.flatMap lineText) = papers.map lineText := by
  have := Lines.lines_flatten (papers.map lineText) (by
    intro l hl
    obtain ⟨p, hp, rfl⟩ := List.mem_map.1 hl
    obtain ⟨b, h1, h2, _⟩ := line_body (h p hp)
    exact ⟨b, h1, h2⟩) []
  rw [List.append_nil] at this
  rw [List.flatMap_def, this]
  simp [Lines.lines]

theorem file_noCR {papers : List Paper} (h : ∀ p ∈ papers, PaperOk p) : '\r' ∉ fileText papers := by
  rw [fileText_eq]
  simp only [List.cons_append, List.mem_cons, List.mem_append, List.not_mem_nil, or_false, not_or]
  refine ⟨by decide, ⟨headerLine_plain.2, by decide⟩, ?_⟩
  intro hm
  obtain ⟨p, hp, hm⟩ := List.mem_flatMap.1 hm
  obtain ⟨b, h1, _, h3, _⟩ := line_body (h p hp)
  rw [h1] at hm
  simp at hm
  exact h3 hm

theorem bom_header : '﻿' :: headerLine ++ ['\n'] = ('﻿' :: headerLine) ++ ['\n'] := rfl

theorem header_lines {papers : List Paper} (h : ∀ p ∈ papers, PaperOk p) :
    Lines.lines (headerLine ++ ['\n'] ++ papers.flatMap lineText) = (headerLine ++ ['\n']) :: papers.map lineText := by
  rw [List.append_assoc, List.singleton_append, Lines.lines_append _ _ headerLine_plain.1, rows_lines h]

theorem file_lines {papers : List Paper} (h : ∀ p ∈ papers, PaperOk p) :
    Lines.fileLines (fileText papers) = ('﻿' :: headerLine ++ ['\n']) :: papers.map lineText := by
  unfold Lines.fileLines
  rw [Lines.univ_id _ (file_noCR h), fileText_eq, List.append_assoc, List.singleton_append, Lines.lines_append _ _ (by
    intro hm
    rcases List.mem_cons.1 hm with hm | hm
    · exact absurd hm (by decide)
    · exact headerLine_plain.1 hm), rows_lines h]

theorem rows_read (papers : List Paper) (h : ∀ p ∈ papers, PaperOk p) (done : List Model.Scopus.Rec) (hdone : ∀ r ∈ done, r.bad = false)
    (hd : (done.map Model.Scopus.Rec.id ++ papers.map (fun p => (toRec p).id)).Nodup) :
    (papers.map lineText).foldl (fun rs row => addRec rs (ofString scopusHeader row)) done = done ++ papers.map toRec := by
  induction papers generalizing done with
  | nil => simp
  | cons p ps ih =>
    have hb := (toRec_spec (h p (by simp))).2.2.2
    rw [List.map_cons, List.foldl_cons]
    change List.foldl _ (addRec done (toRec p)) _ = _
    rw [addRec_fresh done (toRec p) hb (by
      intro s hs
      refine ⟨hdone s hs, fun e => ?_⟩
      rw [List.nodup_append] at hd
      exact hd.2.2 s.id (List.mem_map_of_mem hs) (toRec p).id (by simp) e)]
    rw [ih (fun q hq => h q (List.mem_cons_of_mem _ hq)) (done ++ [toRec p]) (by
      intro s hs
      rcases List.mem_append.1 hs with hs | hs
      · exact hdone s hs
      · simp only [List.mem_singleton] at hs; subst hs; exact hb) (by simpa using hd)]
    simp

theorem distinct {papers : List Paper} (h : FileOk papers) : (papers.map (fun p => (toRec p).id)).Nodup := by
  have hd := h.different
  have he : papers.map (fun p => (toRec p).id) = (papers.map (fun p => (p "EID").value)).map (fun o => some ("EID:".toList ++ o.getD [])) := by
    rw [List.map_map]
    exact List.map_congr_left (fun p hp => (toRec_spec (h.each p hp)).2.2.1)
  rw [he, List.Nodup, List.pairwise_map]
  rw [List.Nodup] at hd
  refine hd.imp_of_mem (fun {a b} ha hb hne e => hne ?_)
  have hs : ∀ o ∈ papers.map (fun p => (p "EID").value), ∃ v, o = some v := by
    intro o ho
    obtain ⟨p, hp, rfl⟩ := List.mem_map.1 ho
    exact (h.each p hp).number
  obtain ⟨x, rfl⟩ := hs a ha
  obtain ⟨y, rfl⟩ := hs b hb
  have := Option.some.inj e
  simp only [Option.getD_some] at this
  rw [List.append_cancel_left this]

theorem records_eq (order : List Model.Scopus.Rec → List Model.Scopus.Rec) {papers : List Paper} (h : FileOk papers) :
    records order (fileText papers) = some (order (papers.map toRec)) := by
  have hl := file_lines h.each
  have hw : Model.Wos.isWOSFile (fileText papers) = false := by
    have hbom : Model.Wos.dropBOM (fileText papers) = headerLine ++ ['\n'] ++ papers.flatMap lineText := by
      rw [fileText_eq]; rfl
    have hcr : '\r' ∉ headerLine ++ ['\n'] ++ papers.flatMap lineText := by
      have := file_noCR h.each
      rw [fileText_eq] at this
      exact fun hm => this (List.mem_cons_of_mem _ hm)
    unfold Model.Wos.isWOSFile Lines.fileLines
    rw [hbom, Lines.univ_id _ hcr, header_lines h.each, Bool.eq_false_iff]
    intro hany
    rw [List.any_eq_true] at hany
    obtain ⟨l, hmem, hcont⟩ := hany
    rw [List.take_succ_cons] at hmem
    rcases List.mem_cons.1 hmem with rfl | hmem
    · exact absurd hcont (by decide +kernel)
    · rw [← List.map_take] at hmem
      obtain ⟨p, hp, rfl⟩ := List.mem_map.1 hmem
      exact h.notWos p hp ((Str.contains_iff _ _).1 hcont)
  have hm : Model.Medline.isMedlineFile (fileText papers) = false := by
    unfold Model.Medline.isMedlineFile
    rw [hl, Bool.eq_false_iff]
    intro hany
    rw [List.any_eq_true] at hany
    obtain ⟨l, hmem, hpre⟩ := hany
    rw [List.take_succ_cons] at hmem
    rcases List.mem_cons.1 hmem with rfl | hmem
    · exact absurd hpre (by decide +kernel)
    · cases papers with
      | nil => cases hmem
      | cons p ps =>
        simp only [List.map_cons, List.take_succ_cons, List.take_zero, List.mem_singleton] at hmem
        subst hmem
        exact h.notMedline p rfl (List.isPrefixOf_iff_prefix.1 hpre)
  have hq : Model.Files.isProQuestFile (fileText papers) = false := by
    unfold Model.Files.isProQuestFile
    rw [hl]
    have h1 : '﻿' :: headerLine ++ ['\n'] ≠ Model.ProQuest.separator := by decide +kernel
    rw [Model.Files.proQuestGo.eq_def]
    dsimp only
    rw [if_neg h1]
    cases papers with
    | nil => rfl
    | cons p ps =>
      have h2 : lineText p ≠ Model.ProQuest.separator := by
        intro e
        obtain ⟨b, hb, _, _, hc⟩ := line_body (h.each p (by simp))
        have : ',' ∈ Model.ProQuest.separator := by rw [← e, hb]; simp [hc]
        exact absurd this (by decide +kernel)
      rw [List.map_cons, Model.Files.proQuestGo.eq_def]
      dsimp only
      rw [if_neg h2]
      rfl
  have hs : isScopusFile (fileText papers) = true := by
    unfold isScopusFile
    rw [Lines.univ_id _ (file_noCR h.each), fileText_eq, List.cons_append, List.cons_append]
    simp only [if_true]
    rw [header_lines h.each, List.any_eq_true]
    refine ⟨headerLine ++ ['\n'], by simp, ?_⟩
    rw [List.dropLast_concat, split_headerLine, symDiff_self]
    decide
  have hp : scopusParser (fileText papers) = papers.map toRec := by
    unfold scopusParser
    rw [Lines.univ_id _ (file_noCR h.each), fileText_eq, List.cons_append, List.cons_append, List.drop_succ_cons, List.drop_zero, header_lines h.each]
    simp only [headerOf_self]
    have := rows_read papers h.each [] (by simp) (by simpa using distinct h)
    rw [this]; rfl
  unfold records
  rw [hw, hm, hq, hs, hp]
  rfl

/-! ## Values -/

/-- The fields as the record holds them. -/
def strFields (p : Paper) : Dict String Str := (toRec p).fields.map (fun f => (String.ofList f.1, f.2))

theorem ofList_get? {β : Type} (d : Dict Str β) (k : String) : Dict.get? (d.map (fun f => (String.ofList f.1, f.2))) k = Dict.get? d k.toList := by
  induction d with
  | nil => rfl
  | cons f d ih =>
    obtain ⟨a, b⟩ := f
    rw [List.map_cons, Dict.get?, Dict.get?, ih]
    by_cases e : a = k.toList
    · subst e; simp
    · rw [if_neg e, if_neg (fun e' => e (by rw [← e', String.toList_ofList]))]

theorem strFields_get? {p : Paper} (h : PaperOk p) (k : String) : (strFields p).get? k = if k ∈ columns then (p k).value else none := by
  unfold strFields
  rw [ofList_get?]
  by_cases hk : k ∈ columns
  · rw [if_pos hk, (toRec_spec h).1 k hk]
  · rw [if_neg hk, (toRec_spec h).2.1 _ (by
      intro hm
      obtain ⟨c, hc, e⟩ := List.mem_map.1 hm
      exact hk (by rw [← String.toList_inj.1 e]; exact hc))]

/-- What reading a column gives first. -/
def direct (W : World) (p : Paper) (c : String) : Except AErr SVal :=
  match (p c).value with
  | none => .error .keyError
  | some t => (cls W).proc c t

/-- What is done with the result of a read. -/
def lift : Except AErr SVal → Except AErr (Option SVal)
  | .ok v => .ok (some v)
  | .error .keyError => .ok none
  | .error e => .error e

theorem noClash (W : World) (d : Dict String Str) : NoClash (cls W) d := by intro k a h; cases h

theorem store_fst (C : Cls String Str SVal) (r : Model.RecordAccess.Rec String Str SVal) (k : String) (v : Except AErr SVal) :
    (store C r k v).1 = v := by
  unfold store
  cases v with
  | error e => rfl
  | ok v => dsimp only; split <;> rfl

theorem item_column (W : World) (before : List (Op String SVal)) {p : Paper} (h : PaperOk p) (c : String) (hc : c ∈ columns) :
    (getitem (cls W) 3 (before.foldl (after (cls W) 3) (fresh (strFields p))) c).1 = direct W p c := by
  have hist := (C28_history_independent (C28_scopus_class (cls W).proc W.truthy W.fin) (strFields p) (noClash W _) before c).2.1
  refine Eq.trans hist ?_
  change (getitem (cls W) 3 (fresh (strFields p)) c).1 = _
  have hg := strFields_get? h c
  rw [if_pos hc] at hg
  unfold getitem direct
  simp only [fresh, Dict.get?_nil, hg]
  cases hv : (p c).value with
  | some t => exact store_fst _ _ _ _
  | none =>
    have hsp : (cls W).special c = .done (.error .keyError) := by
      have : ∀ c ∈ columns, c ≠ "selfCitation" ∧ Dict.get? scopusReads c = none := by decide +kernel
      obtain ⟨h1, h2⟩ := this c hc
      show scopusSpecial W.truthy W.fin c = _
      unfold scopusSpecial
      rw [if_neg h1, h2]
    have ha : ∀ R : Model.RecordAccess.Rec String Str SVal, altField (cls W) R c = none := fun _ => rfl
    simp only [hv, ha, hsp, runProg, store]

theorem value_eq (W : World) (before : Model.Scopus.Rec → List (Op String SVal)) {p : Paper} (h : PaperOk p) (c k : String) (hc : c ∈ columns) (hk : NameOf c k) :
    value W before k (toRec p) = lift (direct W p c) := by
  have key : (getitem (cls W) 3 (held W (before (toRec p)) (toRec p)) k).1 = direct W p c := by
    rcases hk with rfl | hk
    · exact item_column W _ h k hc
    · have hn : (strFields p).get? k = none := by
        rw [strFields_get? h, if_neg]
        have : ∀ q ∈ Spec.CommonNames.scopus, q.1 ∉ columns := by decide +kernel
        exact this _ hk
      exact ((Verif.Props.CommonNames.C86_scopus (cls W).proc W.truthy W.fin (strFields p) (before (toRec p))).1 (k, c) hk hn).trans (item_column W _ h c hc)
  unfold value
  rw [key]
  rfl

theorem list_value (P : Prims) (c sep : String) (hc : (c, sep) ∈ listColumns) (l : List Str) (h1 : l ≠ []) (h3 : ∀ x ∈ l, ¬ sep.toList <:+: x) :
    scopusValue P c.toList (sep.toList.intercalate l) = .ok (.texts l) := by
  obtain ⟨c1, c2, c3⟩ := OtherFields.C71_scopus_lists P l h1
  simp only [listColumns, List.mem_cons, Prod.mk.injEq, List.not_mem_nil, or_false] at hc
  rcases hc with ⟨rfl, rfl⟩ | ⟨rfl, rfl⟩ | hc
  · exact c1 h3
  · exact c2 (fun x hx hm => h3 x hx (by
      change [';'] <:+: x
      rwa [List.singleton_infix_iff]))
  · have hs : sep = "; " := by
      rcases hc with ⟨_, e⟩ | ⟨_, e⟩ | ⟨_, e⟩ | ⟨_, e⟩ | ⟨_, e⟩ | ⟨_, e⟩ | ⟨_, e⟩ | ⟨_, e⟩ <;> exact e
    subst hs
    refine (c3 h3).1 _ ?_
    rcases hc with ⟨e, _⟩ | ⟨e, _⟩ | ⟨e, _⟩ | ⟨e, _⟩ | ⟨e, _⟩ | ⟨e, _⟩ | ⟨e, _⟩ | ⟨e, _⟩ <;> subst e <;> decide


/-- A column of a list. -/
theorem value_list (W : World) (before : Model.Scopus.Rec → List (Op String SVal)) {p : Paper} (h : PaperOk p) (c sep k : String) (hc : (c, sep) ∈ listColumns)
    (hk : NameOf c k) (l : List Str) (hl : Lists sep (p c) l) : value W before k (toRec p) = .ok (if l = [] then none else some (.texts l)) := by
  have hcol : c ∈ columns := by
    have : ∀ q ∈ listColumns, q.1 ∈ columns := by decide +kernel
    exact this _ hc
  rw [value_eq W before h c k hcol hk]
  rcases hl with ⟨h1, rfl⟩ | ⟨h1, h2, h3⟩
  · unfold direct; rw [h1]; rfl
  · rw [if_neg h1]
    have hv : scopusValue W.prims c.toList (sep.toList.intercalate l) = .ok (.texts l) := by
      exact list_value W.prims c sep hc l h1 h3
    unfold direct
    rw [h2]
    simp only [cls, hv]
    rfl

end Verif.Lemmas.ScopusPipeline
