import Verif.Model.MedlinePipeline
import Verif.Spec.MedlinePipeline
import Verif.Props.Medline
import Verif.Props.MedlineFields
import Verif.Props.RecordAccessTables
import Verif.Lemmas.Pipeline

/-! # Lemmas for C108 -/
set_option autoImplicit false
set_option linter.unusedSimpArgs false
namespace Verif.Lemmas.MedlinePipeline
open Verif.Py Verif.Model.Medline Verif.Model.MedlineFields Verif.Model.RecordAccess Verif.Model.TagNames Verif.Model.MedlinePipeline Verif.Spec.MedlinePipeline
  Verif.Spec.Medline Verif.Lemmas.Medline Verif.Props Verif.Props.MedlineFiles Verif.Model.WosFields

/-- The entries with their values. -/
def items (p : Paper) : List (Str × Str) := p.map (fun e => (e.1, "\n".toList.intercalate e.2))

/-- The fields of a paper. -/
def fieldsOf (p : Paper) : Fields := ((items p).foldl stepItem ⟨[], pmid, none⟩).d

/-- The record of a paper. -/
def toRec (p : Paper) : Model.Medline.Rec := ⟨fieldsOf p, some ("PMID:".toList ++ (valuesOf p "PMID").headD []), false⟩

/-- The lines of a paper. -/
def paperLines (p : Paper) : List Str := (items p).flatMap (fun i => entryLines i.1 i.2)

theorem valuesOf_items (p : Paper) (tag : String) : valuesOf p tag = ((items p).filter (fun i => i.1 = tag.toList)).map Prod.snd := by
  unfold valuesOf items
  rw [List.filter_map, List.map_map]
  rfl

theorem get?_values (p : Paper) (tag : String) (ht : tag.toList ∉ attachedTags) :
    Dict.get? (fieldsOf p) tag.toList = if valuesOf p tag = [] then none else some (valuesOf p tag) := by
  have h1 := vals_foldl ⟨[], pmid, none⟩ (items p) tag.toList
  have h2 := foldl_ne ⟨[], pmid, none⟩ (items p) (by intro t; simp [Dict.get?]) tag.toList
  rw [gather_plain _ ht, ← valuesOf_items] at h1
  change (Dict.get? (fieldsOf p) tag.toList).getD [] = [] ++ valuesOf p tag at h1
  change Dict.get? (fieldsOf p) tag.toList ≠ some [] at h2
  rw [List.nil_append] at h1
  cases hg : Dict.get? (fieldsOf p) tag.toList with
  | none => rw [hg] at h1; simp at h1; simp [← h1]
  | some v =>
    rw [hg] at h1 h2
    simp only [Option.getD_some] at h1
    subst h1
    rw [if_neg (fun e => h2 (by rw [e]))]

theorem key_tag (p : Paper) (t : Str) (h : (Dict.get? (fieldsOf p) t).isSome) : ∃ e ∈ p, e.1 = t := by
  by_contra hn
  have h1 := vals_foldl ⟨[], pmid, none⟩ (items p) t
  have h2 := foldl_ne ⟨[], pmid, none⟩ (items p) (by intro t; simp [Dict.get?]) t
  rw [gather_none _ _ _ (by
    intro i hi e
    obtain ⟨x, hx, rfl⟩ := List.mem_map.1 hi
    exact hn ⟨x, hx, e⟩)] at h1
  change (Dict.get? (fieldsOf p) t).getD [] = [] at h1
  obtain ⟨v, hv⟩ := Option.isSome_iff_exists.1 h
  change Dict.get? (fieldsOf p) t ≠ some [] at h2
  rw [hv] at h1 h2
  exact h2 (by rw [show v = [] from h1])

theorem entryText_lines (e : Str × List Str) (h : e.2 ≠ [] ∧ ∀ l ∈ e.2, '\n' ∉ l ∧ '\r' ∉ l) :
    entryText e = (entryLines e.1 ("\n".toList.intercalate e.2)).flatten := by
  have hs : Str.split ['\n'] ("\n".toList.intercalate e.2) = e.2 := by
    rw [← WosFields.join_eq]
    exact Str.split_join_char '\n' e.2 h.1 (fun l hl => (h.2 l hl).1)
  rw [← entry_flatten, entry, Str.replace, hs, WosFields.join_eq]
  rfl

variable {ws alpha : Char → Bool}

theorem paper_flatten {p : Paper} (h : PaperOk alpha p) : p.flatMap entryText = (paperLines p).flatten := by
  have : ∀ q : Paper, (∀ e ∈ q, e ∈ p) → q.flatMap entryText = (paperLines q).flatten := by
    intro q
    induction q with
    | nil => intro _; rfl
    | cons e q ih =>
      intro hq
      have := ih (fun x hx => hq x (List.mem_cons_of_mem _ hx))
      rw [List.flatMap_cons, this, entryText_lines e (h.lines e (hq e (by simp)))]
      simp [paperLines, items]
  exact this p (fun _ h => h)

theorem paper_complete {p : Paper} (h : PaperOk alpha p) : Lines.Complete (paperLines p ++ [['\n']]) := by
  intro l hl
  rcases List.mem_append.1 hl with hl | hl
  · obtain ⟨i, hi, hl⟩ := List.mem_flatMap.1 hl
    obtain ⟨e, he, rfl⟩ := List.mem_map.1 hi
    exact entryLines_complete _ _ (h.tags e he).2.1 l hl
  · simp only [List.mem_singleton] at hl
    exact ⟨[], by simp [hl], by simp⟩

theorem intercalate_notMem (c : Char) (sep : Str) (l : List Str) (hs : c ∉ sep) (h : ∀ x ∈ l, c ∉ x) : c ∉ sep.intercalate l := by
  rw [← WosFields.join_eq]
  induction l with
  | nil => simp [Str.join]
  | cons x l ih =>
    cases l with
    | nil => simpa [Str.join] using h x (by simp)
    | cons y l =>
      rw [Str.join]
      simp only [List.mem_append, not_or]
      exact ⟨⟨h x (by simp), hs⟩, ih (fun z hz => h z (List.mem_cons_of_mem _ hz))⟩

theorem paper_noCR {p : Paper} (h : PaperOk alpha p) : '\r' ∉ (paperLines p ++ [['\n']]).flatten := by
  rw [List.flatten_append, ← paper_flatten h]
  intro hm
  rcases List.mem_append.1 hm with hm | hm
  · obtain ⟨e, he, hm⟩ := List.mem_flatMap.1 hm
    have h1 := (h.tags e he).2.2
    have h2 := (h.lines e he).2
    have h3 := intercalate_notMem '\r' "\n      ".toList e.2 (by decide) (fun l hl => (h2 l hl).2)
    unfold entryText at hm
    simp only [List.mem_append, List.mem_replicate] at hm
    rcases hm with (((hm | hm) | hm) | hm) | hm
    · exact h1 hm
    · exact absurd hm.2 (by decide)
    · exact absurd hm (by decide)
    · exact h3 hm
    · exact absurd hm (by decide)
  · exact absurd hm (by decide)

theorem first_line {p : Paper} (h : PaperOk alpha p) : ∃ v ls, paperLines p = ("PMID- ".toList ++ v ++ ['\n']) :: ls ∧ (valuesOf p "PMID").headD [] = v := by
  obtain ⟨v, rest, rfl⟩ := h.first
  have hl := h.lines _ (List.mem_cons_self ..)
  have hn : '\n' ∉ v := (hl.2 v (by simp)).1
  refine ⟨v, paperLines rest, ?_, by simp [valuesOf, List.intercalate]⟩
  unfold paperLines items
  rw [List.map_cons, List.flatMap_cons]
  have : entryLines "PMID".toList ("\n".toList.intercalate [v]) = ["PMID- ".toList ++ v ++ ['\n']] := by
    unfold entryLines
    rw [show "\n".toList.intercalate [v] = v by simp [List.intercalate], Str.split_none ['\n'] v (by rwa [List.singleton_infix_iff])]
    simp
  rw [this]
  rfl

theorem pmid_field {p : Paper} (h : PaperOk alpha p) : ∃ vs, Dict.get? (fieldsOf p) pmid = some ((valuesOf p "PMID").headD [] :: vs) := by
  have := get?_values p "PMID" (by decide)
  obtain ⟨v, rest, rfl⟩ := h.first
  rw [if_neg (by simp [valuesOf])] at this
  exact ⟨_, this⟩

/-- One paper of a file is read. -/
theorem run_paper (hc : Classes ws alpha) {p : Paper} (h : PaperOk alpha p) (rest : List Str) (res : Res) :
    run ws alpha (paperLines p ++ [['\n']] ++ rest) res = run ws alpha rest { res with recs := addRec res.recs (toRec p) } := by
  obtain ⟨v, ls, hl, hv⟩ := first_line h
  have hp : recordParser ws alpha (paperLines p ++ [['\n']] ++ rest) = (.ok (fieldsOf p), rest) := by
    unfold recordParser
    rw [List.append_assoc]
    unfold paperLines
    rw [parse_items hc _ _ (by
      intro i hi
      obtain ⟨e, he, rfl⟩ := List.mem_map.1 hi
      exact (h.tags e he).1)]
    rw [List.singleton_append, parse_blank _ hc]
    rfl
  obtain ⟨vs, hvs⟩ := pmid_field h
  have hmk : mkRec (.ok (fieldsOf p)) = .ok (toRec p) := mkRec_ok (fieldsOf p) (fieldsOf p) _ vs (fun _ => rfl) hvs
  rw [hl] at hp ⊢
  rw [List.cons_append, List.cons_append] at hp ⊢
  rw [run_cons, if_pos (by rw [List.isPrefixOf_iff_prefix, List.append_assoc]; exact List.prefix_append _ _), hp, hmk]

theorem run_papers (hc : Classes ws alpha) (papers : List Paper) (h : ∀ p ∈ papers, PaperOk alpha p) (done : List Model.Medline.Rec)
    (hdone : ∀ r ∈ done, r.bad = false) (hd : (done.map Model.Medline.Rec.id ++ papers.map (fun p => (toRec p).id)).Nodup) (rest : List Str) :
    run ws alpha (papers.flatMap (fun p => paperLines p ++ [['\n']]) ++ rest) ⟨done, false⟩ = run ws alpha rest ⟨done ++ papers.map toRec, false⟩ := by
  induction papers generalizing done with
  | nil => simp
  | cons p ps ih =>
    rw [List.flatMap_cons, List.append_assoc, run_paper hc (h p (by simp))]
    dsimp only
    rw [addRec_fresh done (toRec p) rfl (by
      intro s hs
      refine ⟨hdone s hs, fun e => ?_⟩
      rw [List.nodup_append] at hd
      exact hd.2.2 s.id (List.mem_map_of_mem hs) (toRec p).id (by simp) e)]
    rw [ih (fun q hq => h q (List.mem_cons_of_mem _ hq)) (done ++ [toRec p]) (by
      intro s hs
      rcases List.mem_append.1 hs with hs | hs
      · exact hdone s hs
      · simp only [List.mem_singleton] at hs; subst hs; rfl) (by simpa using hd)]
    simp

theorem distinct {papers : List Paper} (h : FileOk alpha papers) : (papers.map (fun p => (toRec p).id)).Nodup := by
  have hd := h.different
  have he : papers.map (fun p => (toRec p).id) = (papers.map (fun p => (valuesOf p "PMID").head?)).map (fun o => some ("PMID:".toList ++ o.getD [])) := by
    rw [List.map_map]
    apply List.map_congr_left
    intro p hp
    obtain ⟨v, rest, rfl⟩ := (h.each p hp).first
    rfl
  rw [he, List.Nodup, List.pairwise_map]
  rw [List.Nodup] at hd
  refine hd.imp_of_mem (fun {a b} ha hb hne e => hne ?_)
  have hs : ∀ o ∈ papers.map (fun p => (valuesOf p "PMID").head?), ∃ v, o = some v := by
    intro o ho
    obtain ⟨p, hp, rfl⟩ := List.mem_map.1 ho
    obtain ⟨v, rest, rfl⟩ := (h.each p hp).first
    exact ⟨_, rfl⟩
  obtain ⟨x, rfl⟩ := hs a ha
  obtain ⟨y, rfl⟩ := hs b hb
  have := Option.some.inj e
  simp only [Option.getD_some] at this
  rw [List.append_cancel_left this]

theorem file_lines {papers : List Paper} (h : FileOk alpha papers) :
    Lines.fileLines (fileText papers) = ['\n'] :: papers.flatMap (fun p => paperLines p ++ [['\n']]) := by
  have ht : fileText papers = (['\n'] :: papers.flatMap (fun p => paperLines p ++ [['\n']])).flatten := by
    unfold fileText
    rw [List.flatten_cons]
    congr 1
    have : ∀ ps : List Paper, (∀ p ∈ ps, p ∈ papers) → ps.flatMap (fun p => p.flatMap entryText ++ "\n".toList) =
        (ps.flatMap (fun p => paperLines p ++ [['\n']])).flatten := by
      intro ps
      induction ps with
      | nil => intro _; rfl
      | cons p ps ih =>
        intro hp
        rw [List.flatMap_cons, List.flatMap_cons, ih (fun q hq => hp q (List.mem_cons_of_mem _ hq)), List.flatten_append, List.flatten_append,
          paper_flatten (h.each p (hp p (by simp)))]
        simp
    exact this papers (fun _ h => h)
  have hcomp : Lines.Complete (['\n'] :: papers.flatMap (fun p => paperLines p ++ [['\n']])) := by
    intro l hl
    rcases List.mem_cons.1 hl with rfl | hl
    · exact ⟨[], rfl, by simp⟩
    · obtain ⟨p, hp, hl⟩ := List.mem_flatMap.1 hl
      exact paper_complete (h.each p hp) l hl
  have hcr : '\r' ∉ fileText papers := by
    rw [ht, List.flatten_cons]
    intro hm
    rcases List.mem_append.1 hm with hm | hm
    · exact absurd hm (by decide)
    · obtain ⟨l, hl, hm⟩ := List.mem_flatten.1 hm
      obtain ⟨p, hp, hl⟩ := List.mem_flatMap.1 hl
      exact paper_noCR (h.each p hp) (List.mem_flatten.2 ⟨l, hl, hm⟩)
  unfold Lines.fileLines
  rw [Lines.univ_id _ hcr, ht]
  have := Lines.lines_flatten _ hcomp []
  rw [List.append_nil] at this
  rw [this]
  simp [Lines.lines]

theorem records_eq (W : World) (order : List Model.Medline.Rec → List Model.Medline.Rec) (hc : Classes W.ws W.alpha) {papers : List Paper}
    (h : FileOk W.alpha papers) : records W order (fileText papers) = some (order (papers.map toRec)) := by
  have hl := file_lines h
  obtain ⟨p, ps, rfl⟩ := List.exists_cons_of_ne_nil h.some
  have hp := h.each p (by simp)
  obtain ⟨v, ls, hls, -⟩ := first_line hp
  have hm : isMedlineFile (fileText (p :: ps)) = true := by
    unfold isMedlineFile
    rw [hl, List.flatMap_cons, hls, List.any_eq_true]
    exact ⟨"PMID- ".toList ++ v ++ ['\n'], by simp, by rw [List.isPrefixOf_iff_prefix, List.append_assoc]; exact List.prefix_append _ _⟩
  have hbom : Model.Wos.dropBOM (fileText (p :: ps)) = fileText (p :: ps) := by
    unfold fileText
    show Model.Wos.dropBOM ('\n' :: _) = _
    rw [Model.Wos.dropBOM, if_neg (by decide)]
    rfl
  have hw : Model.Wos.isWOSFile (fileText (p :: ps)) = false := by
    unfold Model.Wos.isWOSFile
    rw [hbom, hl, List.flatMap_cons]
    rw [Bool.eq_false_iff]
    intro hany
    rw [List.any_eq_true] at hany
    obtain ⟨l, hmem, hcont⟩ := hany
    rw [Str.contains_iff] at hcont
    have hin : l = ['\n'] ∨ l ∈ paperLines p := by
      rw [hls] at hmem ⊢
      cases ls with
      | nil => simp at hmem ⊢; tauto
      | cons x ls => simp at hmem ⊢; tauto
    rcases hin with rfl | hin
    · exact absurd hcont.length_le (by decide)
    · obtain ⟨i, hi, hli⟩ := List.mem_flatMap.1 hin
      obtain ⟨e, he, rfl⟩ := List.mem_map.1 hi
      refine h.notWos p (by simp) e he ?_
      rw [entryText_lines e (hp.lines e he)]
      obtain ⟨a, b, hab⟩ := List.append_of_mem hli
      rw [hab]
      exact hcont.trans ⟨a.flatten, b.flatten, by simp⟩
  have hparse : medlineParser W.ws W.alpha (fileText (p :: ps)) = some (.ok ⟨(p :: ps).map toRec, false⟩) := by
    rw [medlineParser_eq _ (by rw [hl]; simp), hl, run_cons, if_neg (by decide), if_pos rfl]
    have := run_papers hc (p :: ps) h.each [] (by simp) (by simpa using distinct h) []
    rw [List.append_nil] at this
    rw [this]
    rfl
  unfold records
  rw [if_neg (by rw [hw]; simp), if_pos hm, hparse]

/-! ## Values -/

/-- The fields as the record holds them. -/
def strFields (p : Paper) : Dict String (List Str) := (fieldsOf p).map (fun f => (String.ofList f.1, f.2))

theorem strFields_get? (p : Paper) (k : String) : (strFields p).get? k = Dict.get? (fieldsOf p) k.toList :=
  Verif.Lemmas.Pipeline.strFields_get? (fieldsOf p) k

theorem long_names : ∀ q ∈ medlineTags, q.1.length ≤ 4 → q.1 = q.2 ∨ q.1 = "ISSN".toList := by decide +kernel

theorem noClash (W : World) {p : Paper} (h : PaperOk W.alpha p) : NoClash (cls W) (strFields p) := by
  intro k a ha hne ⟨h1, h2⟩
  obtain ⟨b, hb, rfl⟩ := Option.map_eq_some_iff.1 (show (medlineAlt k.toList).map String.ofList = some a from ha)
  rw [strFields_get?] at h1 h2
  rw [String.toList_ofList] at h2
  have key : ∀ t : Str, (Dict.get? (fieldsOf p) t).isSome → t.length ≤ 4 ∧ t ≠ "ISSN".toList := by
    intro t ht
    obtain ⟨e, he, rfl⟩ := key_tag p t ht
    exact ⟨(h.tags e he).1.2.1, fun e' => h.reserved e he (by rw [e']; decide)⟩
  have hne' : b ≠ k.toList := fun e => hne (by rw [e, String.ofList_toList])
  rcases (C47_medline_alternatives _ _).1 hb with hw | hw
  · rcases long_names _ ((mem_medline _ _).2 hw) (key _ h2).1 with e | e
    · exact hne' e
    · exact (key _ h2).2 e
  · rcases long_names _ ((mem_medline _ _).2 hw) (key _ h1).1 with e | e
    · exact hne' e.symm
    · exact (key _ h1).2 e

theorem store_fst (C : Cls String (List Str) PVal) (r : Model.RecordAccess.Rec String (List Str) PVal) (k : String) (v : Except AErr PVal) :
    (store C r k v).1 = v := by
  unfold store
  cases v with
  | error e => rfl
  | ok v => dsimp only; split <;> rfl

/-- The names the special functions of Medline records answer to. -/
def specialNames : List Str := ["selfCitation", "id", "address"].map String.toList ++ medlineReads.map (fun q => q.1.toList)

theorem special_none (W : World) (k : String) (h : k.toList ∉ specialNames) : (cls W).special k = .done (.error .keyError) := by
  have h1 : ∀ s : String, s.toList ∈ specialNames → k ≠ s := fun s hs e => h (by rw [e]; exact hs)
  show medlineSpecial W.truthy W.fin W.ident (post W) addr k = _
  unfold medlineSpecial
  rw [if_neg (h1 _ (by decide)), if_neg (h1 _ (by decide)), if_neg (h1 _ (by decide))]
  have : Dict.get? medlineReads k = none := by
    rw [Dict.get?_eq_none_iff]
    intro hm
    obtain ⟨q, hq, e⟩ := List.mem_map.1 hm
    exact h1 q.1 (List.mem_append_right _ (List.mem_map_of_mem hq)) e.symm
  rw [this]

theorem tag_names : ∀ q ∈ medlineTags, q.1 ∉ specialNames ∧ q.2 ∉ specialNames := by decide +kernel

/-- What reading a tag gives first. -/
def direct (W : World) (p : Paper) (tag : String) : Except AErr PVal :=
  if valuesOf p tag = [] then .error .keyError else (cls W).proc tag (valuesOf p tag)

theorem item_tag (W : World) {p : Paper} (h : PaperOk W.alpha p) (tag long : String) (hw : Verif.Spec.TagTable.Medline tag.toList long.toList)
    (hna : tag.toList ∉ attachedTags) (n : Nat) (k : String) (hk : k = tag ∨ k = long) :
    (getitem (cls W) (n + 1) (fresh (strFields p)) k).1 = direct W p tag := by
  have hm := (mem_medline _ _).2 hw
  have hlong : tag = long ∨ Dict.get? (fieldsOf p) long.toList = none := by
    cases hg : Dict.get? (fieldsOf p) long.toList with
    | none => exact .inr rfl
    | some v =>
      obtain ⟨e, he, e1⟩ := key_tag p long.toList (by rw [hg]; rfl)
      rcases long_names _ hm (by dsimp only; rw [← e1]; exact (h.tags e he).1.2.1) with e2 | e2
      · exact .inl (String.toList_inj.1 e2.symm)
      · exact absurd (by rw [e1, show long.toList = "ISSN".toList from e2]; decide) (h.reserved e he)
  have hget : (strFields p).get? tag = if valuesOf p tag = [] then none else some (valuesOf p tag) := by rw [strFields_get?, get?_values p tag hna]
  have a1 : (cls W).alt tag = some long := by
    show (medlineAlt tag.toList).map String.ofList = _
    rw [(C47_medline_alternatives _ _).2 (.inl hw)]; simp
  have a2 : (cls W).alt long = some tag := by
    show (medlineAlt long.toList).map String.ofList = _
    rw [(C47_medline_alternatives _ _).2 (.inr hw)]; simp
  obtain ⟨s1, s2⟩ := tag_names _ hm
  have sp1 := special_none W tag s2
  have sp2 := special_none W long s1
  have first : ∀ n, (getitem (cls W) (n + 1) (fresh (strFields p)) tag).1 = direct W p tag := by
    intro n
    unfold getitem direct
    simp only [fresh, Dict.get?_nil]
    by_cases hl : valuesOf p tag = []
    · rw [if_pos hl] at hget
      rw [if_pos hl]
      have hgl : (strFields p).get? long = none := by
        rcases hlong with e | e
        · rw [← e]; exact hget
        · rw [strFields_get?, e]
      simp only [hget, altField, a1, hgl, sp1, runProg, store]
    · rw [if_neg hl] at hget
      rw [if_neg hl]
      simp only [hget]
      exact store_fst _ _ _ _
  rcases hk with rfl | rfl
  · exact first n
  · rcases hlong with e | e
    · rw [← e]; exact first n
    · have hgl : (strFields p).get? k = none := by rw [strFields_get?, e]
      unfold getitem direct
      simp only [fresh, Dict.get?_nil]
      by_cases hl : valuesOf p tag = []
      · rw [if_pos hl] at hget
        rw [if_pos hl]
        simp only [hgl, altField, a2, hget, sp2, runProg, store]
      · rw [if_neg hl] at hget
        rw [if_neg hl]
        simp only [hgl, altField, a2, hget]
        exact store_fst _ _ _ _

theorem reads_names : ∀ q ∈ medlineReads, (q.1.toList.length ≤ 4 → q.1.toList ∈ ["ISSN", "DOI", "year", "j9"].map String.toList) ∧
    medlineAlt q.1.toList = none ∧ q.1 ≠ "selfCitation" ∧ q.1 ≠ "id" ∧ q.1 ≠ "address" ∧ Dict.get? medlineReads q.1 = some q.2 := by decide +kernel

theorem item_common (W : World) {p : Paper} (h : PaperOk W.alpha p) (tag long k : String) (hw : Verif.Spec.TagTable.Medline tag.toList long.toList)
    (hna : tag.toList ∉ attachedTags) (n : Nat) (hk : (k, tag) ∈ medlineReads) :
    (getitem (cls W) (n + 2) (fresh (strFields p)) k).1 = (match direct W p tag with | .ok v => post W k v | .error e => .error e) := by
  obtain ⟨r1, r2, r3, r4, r5, r6⟩ := reads_names _ hk
  dsimp only at r1 r2 r3 r4 r5 r6
  have hg : (strFields p).get? k = none := by
    rw [strFields_get?]
    cases hg : Dict.get? (fieldsOf p) k.toList with
    | none => rfl
    | some v =>
      obtain ⟨e, he, e1⟩ := key_tag p k.toList (by rw [hg]; rfl)
      exact absurd (by rw [e1]; exact r1 (by rw [← e1]; exact (h.tags e he).1.2.1)) (h.reserved e he)
  have ha : (cls W).alt k = none := by show (medlineAlt k.toList).map String.ofList = none; rw [r2]; rfl
  have hs : (cls W).special k = read1 tag (post W k) := by
    show medlineSpecial W.truthy W.fin W.ident (post W) addr k = _
    unfold medlineSpecial
    rw [if_neg r3, if_neg r4, if_neg r5, r6]
  have ht := item_tag W h tag long hw hna n tag (.inl rfl)
  rw [getitem]
  simp only [fresh, Dict.get?_nil, hg, altField, ha, hs, store_fst]
  simp only [fresh] at ht
  unfold read1
  rw [runProg, ht]
  cases direct W p tag <;> rfl

/-- What is done with the result of a read. -/
def lift : Except AErr PVal → Except AErr (Option PVal)
  | .ok v => .ok (some v)
  | .error .keyError => .ok none
  | .error e => .error e

theorem value_fresh (W : World) (before : Model.Medline.Rec → List (Op String PVal)) {p : Paper} (h : PaperOk W.alpha p) (k : String) :
    value W before k (toRec p) = lift (getitem (cls W) 3 (fresh (strFields p)) k).1 := by
  have hist := (C28_medline_records (cls W).proc W.truthy W.fin W.ident (post W) addr (strFields p) (noClash W h) (before (toRec p)) k).2.1
  have e : (getitem (cls W) 3 (held W (before (toRec p)) (toRec p)) k).1 = (getitem (cls W) 3 (fresh (strFields p)) k).1 := hist
  unfold value
  rw [e]
  rfl

theorem value_tag (W : World) (before : Model.Medline.Rec → List (Op String PVal)) {p : Paper} (h : PaperOk W.alpha p) (tag long k : String)
    (hw : Verif.Spec.TagTable.Medline tag.toList long.toList) (hna : tag.toList ∉ attachedTags) (hk : k = tag ∨ k = long) :
    value W before k (toRec p) = lift (direct W p tag) := by
  rw [value_fresh W before h, item_tag W h tag long hw hna 2 k hk]

theorem value_common (W : World) (before : Model.Medline.Rec → List (Op String PVal)) {p : Paper} (h : PaperOk W.alpha p) (tag long k : String)
    (hw : Verif.Spec.TagTable.Medline tag.toList long.toList) (hna : tag.toList ∉ attachedTags) (hk : (k, tag) ∈ medlineReads) :
    value W before k (toRec p) = lift (match direct W p tag with | .ok v => post W k v | .error e => .error e) := by
  rw [value_fresh W before h, item_common W h tag long k hw hna 1 hk]

end Verif.Lemmas.MedlinePipeline
