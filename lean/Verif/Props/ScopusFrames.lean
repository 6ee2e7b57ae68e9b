import Verif.Model.ScopusFrames
import Verif.Props.ScopusPipeline
import Verif.Props.Tables
import Verif.Props.WosFields

/-! # C130: from a Scopus file to the table of `forNLP` -/
set_option autoImplicit false
set_option linter.unusedSimpArgs false
namespace Verif.Props.ScopusFrames
open Verif.Py Verif.Model.OtherFields Verif.Model.WosFields Verif.Model.RecordAccess Verif.Model.ScopusPipeline Verif.Model.ScopusFrames Verif.Spec.ScopusPipeline Verif.Spec
  Verif.Spec.Scopus Verif.Lemmas.ScopusPipeline Verif.Props.ScopusPipeline

/-! ## Nothing of nothing -/

theorem dropAll_blank (l : List Str) : ∀ s : Str, s = [' ', ' '] ∨ s = [' '] → ((Model.Tables.dropAll l s).drop 1).dropLast = [] := by
  induction l with
  | nil =>
    rintro s (rfl | rfl) <;> rfl
  | cons d l ih =>
    intro s hs
    unfold Model.Tables.dropAll
    rw [List.foldl_cons]
    refine ih _ ?_
    dsimp only
    split
    · rename_i hc
      rw [Str.contains_iff] at hc
      have hlen := hc.length_le
      rcases hs with rfl | rfl
      · have hd : d = [] := List.length_eq_zero_iff.1 (by simp only [List.length_append, List.length_cons, List.length_nil] at hlen; omega)
        subst hd
        exact .inr (by decide)
      · simp only [List.length_append, List.length_cons, List.length_nil] at hlen
        omega
    · exact hs

theorem prep_nothing (ch : Model.Tables.Chars) (o : Model.Tables.NlpOpts) (hlow : ch.lower [] = []) (hst : ∀ f, o.stemmer = some f → f [] = []) :
    Model.Tables.abPrep ch o [] = ([], []) := by
  have hfind : Model.Tables.findCopyright ch.space ch.digit [] = ([], []) := by
    unfold Model.Tables.findCopyright
    have : Model.Tables.splitString ch.digit [] = none := by rfl
    rw [this]
  have h1 : ∀ l : List Str, ((Model.Tables.dropAll l ([' '] ++ Str.replace ['\n'] [' '] [] ++ [' '])).drop 1).dropLast = [] := fun l => dropAll_blank l _ (.inl (by decide))
  have h2 : (if o.whitespace then Model.Tables.collapse ch.space false [] else []) = ([] : Str) := by split <;> rfl
  have h3 : (if o.copyright then (([], []) : Str × Str) else ([], [])) = ([], []) := by split <;> rfl
  have h4 : (if o.lower then ch.lower [] else []) = ([] : Str) := by split; exact hlow; rfl
  have h5 : Model.Tables.dropOther ch o.numbers o.nonWords [] = [] := rfl
  have h6 : Str.split [' '] ([] : Str) = [[]] := by decide
  unfold Model.Tables.abPrep
  cases hd : o.dropList <;> cases hs : o.stemmer <;> simp only [h1, h2, hfind, h3, h4, h5, h6, List.map_singleton]
  · rw [hst _ hs]; rfl
  · rw [hst _ hs]; rfl

section
variable {W : World} {order : List Model.Scopus.Rec → List Model.Scopus.Rec} (before : Model.Scopus.Rec → List (Op String SVal)) {papers : List Paper}

/-- There is no column `AB`. -/
theorem no_ab {p : Paper} (h : PaperOk p) : value W before "AB" (toRec p) = .ok none := by
  have key : (getitem (cls W) 3 (held W (before (toRec p)) (toRec p)) "AB").1 = .error .keyError := by
    have hist := (C28_history_independent (C28_scopus_class (cls W).proc W.truthy W.fin) (strFields p) (noClash W _) (before (toRec p)) "AB").2.1
    refine Eq.trans hist ?_
    change (getitem (cls W) 3 (fresh (strFields p)) "AB").1 = _
    have hg := strFields_get? h "AB"
    rw [if_neg (by decide +kernel)] at hg
    have hsp : (cls W).special "AB" = .done (.error .keyError) := by
      show scopusSpecial W.truthy W.fin "AB" = _
      unfold scopusSpecial
      rw [if_neg (by decide), show Dict.get? scopusReads "AB" = none by decide +kernel]
    have ha : ∀ R : Model.RecordAccess.Rec String Str SVal, altField (cls W) R "AB" = none := fun _ => rfl
    unfold getitem
    simp only [fresh, Dict.get?_nil, hg, ha, hsp, runProg, store]
  unfold value
  rw [key]

/-- **C130, the table.** One row for each paper of the file, in an order that is the same for all columns: its number, its year as a number (the empty text without one), its
title, and its keywords with bars between them. The abstract is the empty text. -/
theorem C130_nlp_partial (ho : ∀ rs, (order rs).Perm rs) (hf : FileOk papers) (hint : ∀ n : Nat, W.prims.int (showNat n) = some (n : Int)) {year : Paper → Option Nat}
    (hy : ∀ p ∈ papers, (p "Year").value = (year p).map showNat) {kw : Paper → List Str} (hkw : ∀ p ∈ papers, Lists "; " (p "Index Keywords") (kw p))
    (ch : Model.Tables.Chars) (hlow : ch.lower [] = []) (o : Model.Tables.NlpOpts) (hst : ∀ f, o.stemmer = some f → f [] = []) :
    ∃ (d : Dict Str (List SVal)) (inOrder : List Paper), nlp W before order ch o (fileText papers) = some (.ok (some d)) ∧ inOrder.Perm papers ∧
      (∀ c : String, c.toList ∈ d.keys ↔ c ∈ ["id", "year", "title", "keywords", "abstract"] ∨ (c = "copyright" ∧ o.copyright = true)) ∧
      d.get? "id".toList = some (inOrder.map (fun p => .text ("EID:".toList ++ (p "EID").value.getD []))) ∧
      d.get? "year".toList = some (inOrder.map (fun p => (year p).elim (.text []) (fun y => .num y))) ∧
      d.get? "title".toList = some (inOrder.map (fun p => .text ((p "Title").value.getD []))) ∧
      d.get? "keywords".toList = some (inOrder.map (fun p => .text (['|'].intercalate (kw p)))) ∧
      d.get? "abstract".toList = some (inOrder.map (fun _ => .text [])) ∧
      (o.copyright = true → d.get? "copyright".toList = some (inOrder.map (fun _ => .text []))) := by
  obtain ⟨rs, of, hrec, hperm, hall⟩ := C109_reading (W := W) before ho hf
  have hmem : ∀ r ∈ rs, of r ∈ papers := fun r hr => hperm.mem_iff.1 (List.mem_map_of_mem hr)
  have hrs : rs = order (papers.map toRec) := by
    have := records_eq order hf
    rw [hrec] at this
    exact Option.some.inj this
  let R : Model.Scopus.Rec → NlpRead := fun r => ⟨r.id, none, (year (of r)).map (fun y : Nat => SVal.num (y : Int)), (of r "Title").value.map .text,
    if kw (of r) = [] then none else some (.texts (kw (of r)))⟩
  have hread : rs.mapM (nlpRead W before) = .ok (rs.map R) := by
    apply Lemmas.Pipeline.mapM_ok
    intro r hr
    obtain ⟨_, h2, h3, h4⟩ := hall r hr
    have a1 : value W before "AB" r = .ok none := by
      rw [hrs] at hr
      obtain ⟨p, _, hpok, rfl⟩ := of_order ho hf hr
      exact no_ab before hpok
    have a2 : value W before "year" r = .ok ((year (of r)).map (fun y : Nat => SVal.num (y : Int))) := by
      obtain ⟨n1, n2⟩ := h4 "Year" (by decide) "year" (.inr (by decide +kernel))
      have hyr := hy _ (hmem r hr)
      cases e : year (of r) with
      | none => rw [e] at hyr; exact n1 hyr
      | some y => rw [e] at hyr; exact n2 _ _ hyr (hint y)
    have a3 := h3 "Title" (by decide +kernel) "title" (.inr (by decide +kernel))
    have a4 := h2 "Index Keywords" "; " "keywords" (kw (of r)) (by decide +kernel) (.inr (by decide +kernel)) (hkw _ (hmem r hr))
    unfold nlpRead
    rw [a1, a2, a3, a4]
    rfl
  obtain ⟨d, d1, d2, d3⟩ := Verif.Props.C27_columns_partial ch o nlpView [] List.nodup_nil (fun _ h => by cases h) (rs.map R)
  have hid : ∀ r ∈ rs, (R r).id = some ("EID:".toList ++ ((of r) "EID").value.getD []) := fun r hr => (hall r hr).1
  have hcol : ∀ (f : NlpRead → SVal) (g : Paper → SVal), (∀ r ∈ rs, f (R r) = g (of r)) → (rs.map R).map f = (rs.map of).map g := by
    intro f g h
    rw [List.map_map, List.map_map]
    exact List.map_congr_left h
  have d2' : ∀ c : String, c.toList ∈ d.keys ↔ c ∈ ["id", "year", "title", "keywords", "abstract"] ∨ (c = "copyright" ∧ o.copyright = true) := by
    intro c
    rw [d2 c]
    simp only [List.not_mem_nil, or_false]
  refine ⟨d, rs.map of, ?_, hperm, d2', ?_, ?_, ?_, ?_, ?_, ?_⟩
  · unfold nlp
    rw [hrec]
    simp only [Option.map_some]
    rw [hread]
    exact congrArg (fun x => some (Except.ok x)) d1
  · rw [d3 "id" ((d2 _).2 (.inl (by decide)))]
    refine congrArg some (hcol _ _ (fun r hr => ?_))
    show SVal.text ((R r).id.getD []) = _
    rw [hid r hr]; rfl
  · rw [d3 "year" ((d2 _).2 (.inl (by decide)))]
    refine congrArg some (hcol _ _ (fun r hr => ?_))
    show ((year (of r)).map (fun y : Nat => SVal.num (y : Int))).getD (.text []) = _
    cases year (of r) <;> rfl
  · rw [d3 "title" ((d2 _).2 (.inl (by decide)))]
    refine congrArg some (hcol _ _ (fun r hr => ?_))
    show ((of r "Title").value.map SVal.text).getD (.text []) = _
    cases (of r "Title").value <;> rfl
  · rw [d3 "keywords" ((d2 _).2 (.inl (by decide)))]
    refine congrArg some (hcol _ _ (fun r hr => ?_))
    show SVal.text (Str.join ['|'] (match (if kw (of r) = [] then none else some (SVal.texts (kw (of r)))) with | some (.texts l) => l | _ => [])) = _
    rw [← WosFields.join_eq]
    by_cases e : kw (of r) = []
    · rw [if_pos e, e]
    · rw [if_neg e]
  · rw [d3 "abstract" ((d2 _).2 (.inl (by decide)))]
    refine congrArg some (hcol _ _ (fun r hr => ?_))
    show SVal.text (Model.Tables.abPrep ch o []).1 = _
    rw [prep_nothing ch o hlow hst]
  · intro hco
    rw [d3 "copyright" ((d2 _).2 (.inr (.inl ⟨rfl, hco⟩)))]
    refine congrArg some (hcol _ _ (fun r hr => ?_))
    unfold Verif.Props.nlpCell
    rw [if_neg (by decide), if_neg (by decide), if_neg (by decide), if_neg (by decide), if_neg (by decide), if_pos ⟨rfl, hco⟩]
    show SVal.text (Model.Tables.abPrep ch o []).2 = _
    rw [prep_nothing ch o hlow hst]

/-- **The code and abstracts.** Whatever abstracts the papers of a Scopus file have, and although each record gives its abstract when it is asked for it, none is in the table. -/
theorem C130_abstract_lost (ho : ∀ rs, (order rs).Perm rs) (hf : FileOk papers) (hint : ∀ n : Nat, W.prims.int (showNat n) = some (n : Int)) {year : Paper → Option Nat}
    (hy : ∀ p ∈ papers, (p "Year").value = (year p).map showNat) {kw : Paper → List Str} (hkw : ∀ p ∈ papers, Lists "; " (p "Index Keywords") (kw p))
    (ch : Model.Tables.Chars) (hlow : ch.lower [] = []) (o : Model.Tables.NlpOpts) (hst : ∀ f, o.stemmer = some f → f [] = []) :
    (∃ (rs : List Model.Scopus.Rec) (of : Model.Scopus.Rec → Paper), records order (fileText papers) = some rs ∧ (rs.map of).Perm papers ∧
      ∀ r ∈ rs, value W before "abstract" r = .ok ((of r "Abstract").value.map .text)) ∧
    ∃ d : Dict Str (List SVal), nlp W before order ch o (fileText papers) = some (.ok (some d)) ∧ d.get? "abstract".toList = some (papers.map (fun _ => .text [])) := by
  obtain ⟨rs, of, hrec, hperm, hall⟩ := C109_reading (W := W) before ho hf
  obtain ⟨d, l, d1, d2, _, _, _, _, _, d8, _⟩ := C130_nlp_partial before ho hf hint hy hkw ch hlow o hst
  refine ⟨⟨rs, of, hrec, hperm, fun r hr => (hall r hr).2.2.1 "Abstract" (by decide +kernel) "abstract" (.inr (by decide +kernel))⟩, d, d1, ?_⟩
  rw [d8]
  simp only [List.map_const', d2.length_eq]

end

/-! ## A file -/

theorem int_show (n : Nat) : w.prims.int (showNat n) = some (n : Int) := by
  obtain ⟨h1, h2, h3⟩ := showAux_spec (n + 1) n (by omega)
  show (if (!(showNat n).isEmpty && (showNat n).all isDig) = true then some ((readNat (showNat n) : Nat) : Int) else none) = _
  rw [if_pos, readNat_showNat]
  have h4 : (showNat n).all isDig = true := List.all_eq_true.2 h2
  have h5 : (showNat n).isEmpty = false := by
    have : showNat n ≠ [] := h3
    simpa using this
  rw [h4, h5]; rfl

def ascii : Model.Tables.Chars := ⟨(· == ' '), Char.isAlphanum, Char.isDigit, fun s => s.map Char.toLower⟩

def options : Model.Tables.NlpOpts := ⟨some ["the".toList], true, true, true, true, true, none⟩

example : ∃ (d : Dict Str (List SVal)) (inOrder : List Paper), nlp w (fun _ => [.item "Abstract"]) List.reverse ascii options (fileText file) = some (.ok (some d)) ∧ inOrder.Perm file ∧
    d.get? "title".toList = some (inOrder.map (fun p => .text ((p "Title").value.getD []))) ∧ d.get? "abstract".toList = some (inOrder.map (fun _ => .text [])) := by
  obtain ⟨d, l, d1, d2, _, _, _, d6, _, d8, _⟩ := C130_nlp_partial (W := w) (fun _ => [.item "Abstract"]) List.reverse_perm file_ok int_show
    (year := fun p => if (p "Year").value = none then none else some 2001) (by decide +kernel) keywords_ok ascii rfl options (by intro f hf; cases hf)
  exact ⟨d, l, d1, d2, d6, d8⟩

/-- A paper with an abstract. -/
def known : List Paper := [paper [("EID", .bare "11".toList), ("Abstract", .quoted "Ants and bees".toList)]]

theorem known_ok : FileOk known where
  each p hp := {
    cells := by
      intro c hc
      rw [List.mem_singleton.1 hp]
      have hall : ∀ c ∈ columns, (match paper [("EID", .bare "11".toList), ("Abstract", .quoted "Ants and bees".toList)] c with
        | .bare s => decide (',' ∉ s ∧ s.getLast? ≠ some '"')
        | .quoted v => decide ('"' ∉ v ∧ v.head? ≠ none ∧ ∀ c ∈ v.head?, c ∉ ['"', ',', '|', '$'])) = true ∧
        '\n' ∉ (paper [("EID", .bare "11".toList), ("Abstract", .quoted "Ants and bees".toList)] c).text ∧
        '\r' ∉ (paper [("EID", .bare "11".toList), ("Abstract", .quoted "Ants and bees".toList)] c).text := by decide +kernel
      obtain ⟨h1, h2⟩ := hall c hc
      refine ⟨?_, h2⟩
      revert h1
      generalize paper [("EID", .bare "11".toList), ("Abstract", .quoted "Ants and bees".toList)] c = x
      intro h1
      exact cell_ok x h1
    number := ⟨"11".toList, by rw [List.mem_singleton.1 hp]; decide +kernel⟩ }
  different := by decide +kernel
  notWos := by
    intro p hp hi
    have : ∀ p ∈ known.take 2, Str.contains "VR 1.0".toList (lineText p) = false := by decide +kernel
    have h1 := this p hp
    rw [(Str.contains_iff _ _).2 hi] at h1
    cases h1
  notMedline := by
    intro p hp hi
    have : ∀ p ∈ known.head?, ("PMID- ".toList).isPrefixOf (lineText p) = false := by decide +kernel
    have h1 := this p hp
    rw [List.isPrefixOf_iff_prefix.2 hi] at h1
    cases h1

example := C130_abstract_lost (W := w) (fun _ => []) List.reverse_perm known_ok int_show (year := fun _ => none) (by decide +kernel) (kw := fun _ => [])
  (fun p hp => .inl ⟨by rw [List.mem_singleton.1 hp]; decide +kernel, rfl⟩) ascii rfl options (by intro f hf; cases hf)

end Verif.Props.ScopusFrames
